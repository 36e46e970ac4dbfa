import Verif.UHeap.UHeapSpec
import Verif.Heap.HeapLemmas
import Verif.Mem.AllocProps

/-!
# The invariant of the user heap
-/

namespace NRK.UHeap

open NRK.Mem NRK.Mem.Spec NRK.Heap

def CSlot.block (s : CSlot) : Block := ⟨s.addr, s.size⟩

/-- The bytes that are set aside for an object. -/
def res (k : HCfg) (o : UObj) : Block :=
  if o.size ≤ k.maxAlloc then ⟨o.ptr, k.cls o.size⟩
  else if o.size ≤ LARGE then ⟨o.ptr, LARGE⟩
  else ⟨o.ptr, o.size⟩

/-- Everything that may not overlap. -/
def all (k : HCfg) (h : UHeap) (objs : List UObj) : List Block :=
  h.free.map CSlot.block ++ h.pages.map (metaOf k) ++ (h.mm ++ objs.map (res k))

/-- The slots that small objects occupy. -/
def slots (k : HCfg) (objs : List UObj) : List CSlot :=
  (objs.filter fun o => decide (o.size ≤ k.maxAlloc)).map fun o => ⟨o.core, o.ptr, k.cls o.size⟩

structure Inv (k : HCfg) (h : UHeap) (objs : List UObj) : Prop where
  pos : ∀ c, 0 < (h.pagers c).sbrk
  disj : AllDisjoint (all k h objs)
  cov : ∀ b ∈ all k h objs, ∀ a, b.Has a → Mapped h a
  live : h.live.Perm (slots k objs)
  al : ∀ o ∈ objs, o.ptr % o.align = 0
  nzf : ∀ s ∈ h.free, 0 < s.addr
  nzo : ∀ o ∈ objs, 0 < o.ptr

theorem Same.refl (m : Nat → UInt8) (bs : List Block) : Same m m bs := fun _ _ _ _ => rfl

theorem Same.trans {m m' m'' : Nat → UInt8} {bs : List Block} (h : Same m m' bs) (h' : Same m' m'' bs) :
    Same m m'' bs := fun b hb a ha => (h' b hb a ha).trans (h b hb a ha)

theorem Same.sub {m m' : Nat → UInt8} {bs bs' : List Block} (h : Same m m' bs) (hs : ∀ b ∈ bs', b ∈ bs) :
    Same m m' bs' := fun b hb => h b (hs b hb)

theorem owned_cons {h : UHeap} {o : UObj} {objs : List UObj} : ∀ b ∈ owned h objs, b ∈ owned h (o :: objs) := by
  intro b hb
  rcases List.mem_append.1 hb with hb | hb
  · exact List.mem_append_left _ hb
  · exact List.mem_append_right _ (List.mem_cons_of_mem _ hb)

theorem owned_obj {h : UHeap} {o : UObj} {objs : List UObj} (ho : o ∈ objs) : o.block ∈ owned h objs :=
  List.mem_append_right _ (List.mem_map_of_mem ho)

theorem owned_mm {h h' : UHeap} {objs : List UObj} (e : h'.mm = h.mm) : owned h' objs = owned h objs := by
  unfold owned; rw [e]

theorem Same.own {m m' : Nat → UInt8} {h g : UHeap} {objs : List UObj} (s : Same m m' (owned g objs))
    (e : g.mm = h.mm) : Same m m' (owned h objs) := by rw [← owned_mm e]; exact s

theorem obj_inside {k : HCfg} (hk : CfgOk k) (o : UObj) : Inside o.block (res k o) := by
  unfold res
  split
  · rename_i h
    exact inside_of_le (Nat.le_refl _) (by show o.ptr + o.size ≤ o.ptr + k.cls o.size; have := (hk.le _ h).1; omega)
  · split
    · exact inside_of_le (Nat.le_refl _) (by show o.ptr + o.size ≤ o.ptr + LARGE; omega)
    · exact fun _ h => h

theorem all_free {k : HCfg} {h : UHeap} {objs : List UObj} {s : CSlot} (hs : s ∈ h.free) :
    s.block ∈ all k h objs := by
  unfold all
  exact List.mem_append_left _ (List.mem_append_left _ (List.mem_map_of_mem hs))

theorem all_meta {k : HCfg} {h : UHeap} {objs : List UObj} {f : Frame} (hs : f ∈ h.pages) :
    metaOf k f ∈ all k h objs := by
  unfold all
  exact List.mem_append_left _ (List.mem_append_right _ (List.mem_map_of_mem hs))

theorem all_obj {k : HCfg} {h : UHeap} {objs : List UObj} {o : UObj} (hs : o ∈ objs) :
    res k o ∈ all k h objs := by
  unfold all
  exact List.mem_append_right _ (List.mem_append_right _ (List.mem_map_of_mem hs))

/-- What the program owns lies in what may not overlap. -/
theorem owned_inside {k : HCfg} (hk : CfgOk k) {h : UHeap} {objs : List UObj} {b : Block} (hb : b ∈ owned h objs) :
    ∃ b' ∈ h.mm ++ objs.map (res k), Inside b b' := by
  rcases List.mem_append.1 hb with hb | hb
  · exact ⟨b, List.mem_append_left _ hb, fun _ h => h⟩
  · obtain ⟨o, ho, rfl⟩ := List.mem_map.1 hb
    exact ⟨res k o, List.mem_append_right _ (List.mem_map_of_mem ho), obj_inside hk o⟩

/-- The slab allocator's own data never overlaps an object. -/
theorem Inv.scribble {k : HCfg} (hk : CfgOk k) {h : UHeap} {objs : List UObj} (inv : Inv k h objs)
    (noise : Nat → UInt8) : Same h.mem (Heap.scribble k h.pages noise h.mem) (owned h objs) := by
  intro b hb a ha
  refine scribble_keep (fun f hf hm => ?_)
  have hd := inv.disj
  unfold all at hd
  obtain ⟨b', hb', hi⟩ := owned_inside hk hb
  have := (List.pairwise_append.1 hd).2.2 (metaOf k f) (List.mem_append_right _ (List.mem_map_of_mem hf)) b' hb'
  exact this _ ⟨hm, hi _ ha⟩

theorem Inv.mem {k : HCfg} {h : UHeap} {objs : List UObj} (inv : Inv k h objs) (m : Nat → UInt8) :
    Inv k { h with mem := m } objs :=
  ⟨inv.pos, inv.disj, inv.cov, inv.live, inv.al, inv.nzf, inv.nzo⟩

theorem Inv.perm {k : HCfg} {h : UHeap} {objs objs' : List UObj} (inv : Inv k h objs) (p : objs.Perm objs') :
    Inv k h objs' where
  pos := inv.pos
  disj := allDisjoint_perm inv.disj (((p.map _).append_left _).append_left _)
  cov := fun b hb => inv.cov b (((((p.map _).append_left _).append_left _).mem_iff).2 hb)
  live := inv.live.trans ((p.filter _).map _)
  al := fun o ho => inv.al o (p.mem_iff.2 ho)
  nzf := inv.nzf
  nzo := fun o ho => inv.nzo o (p.mem_iff.2 ho)

/-! ## Pages -/

theorem not_overlaps {b c : Block} (h : overlaps b c = false) : Disjoint c b := by
  intro a ⟨h1, h2⟩
  unfold Block.Has at h1 h2
  simp only [overlaps, Bool.and_eq_false_iff, decide_eq_false_iff_not] at h
  omega

/-- What a page is: fresh, aligned. -/
structure Fresh (h h' : UHeap) (a size : Nat) : Prop where
  maps : h'.maps = ⟨a, size⟩ :: h.maps
  apart : ∀ b ∈ h.maps, Disjoint b ⟨a, size⟩
  align : a % size = 0
  pos : 0 < a

/-- The two heaps differ only in their pagers and maps. -/
structure Rest (h h' : UHeap) : Prop where
  free : h'.free = h.free
  live : h'.live = h.live
  pages : h'.pages = h.pages
  mem : h'.mem = h.mem
  mm : h'.mm = h.mm
  pos : (∀ c, 0 < (h.pagers c).sbrk) → ∀ c, 0 < (h'.pagers c).sbrk

def PageSize (size : Nat) : Prop := size = BASE ∨ size = LARGE

theorem PageSize.round {size : Nat} (h : PageSize size) : roundUp size 4096 = size ∧ max size 4096 = size ∧ 0 < size := by
  rcases h with rfl | rfl
  · rw [BASE_eq]; decide
  · rw [LARGE_eq]; decide

theorem roundUp_mod (n s : Nat) : roundUp n s % s = 0 := by unfold roundUp; exact Nat.mul_mod_left _ _

theorem page_spec {h h' : UHeap} {ok : Nat → Nat → Bool} {i size : Nat} {o : Option Nat} (hs : PageSize size)
    (hp : ∀ c, 0 < (h.pagers c).sbrk) (e : h.page ok i size = (o, h')) :
    Rest h h' ∧ ((∃ a, o = some a ∧ Fresh h h' a size) ∨ (o = none ∧ h'.maps = h.maps)) := by
  obtain ⟨r1, r2, r3⟩ := hs.round
  have hge := roundUp_ge (h.pagers i).sbrk size r3
  have pos : ∀ p : Pager, 0 < p.sbrk → ∀ c, 0 < (upd h.pagers i p c).sbrk := by
    intro p hp' c
    by_cases ec : c = i
    · subst ec; rw [upd_same]; exact hp'
    · simp only [upd, ec, if_false]; exact hp c
  unfold UHeap.page at e
  rcases allocate_spec (h.pagers i) (h.kmap ok) size size with ⟨a, e1, e2, e3, e4⟩ | e1
  · rw [e1] at e
    simp only at e
    cases e
    rw [r2] at e2
    rw [r1] at e4
    simp only [UHeap.kmap, Bool.and_eq_true, Bool.not_eq_true'] at e4
    have hpi := hp i
    have ha : 0 < a := by omega
    refine ⟨⟨rfl, rfl, rfl, rfl, rfl, fun _ => pos _ (by show 0 < a + _; omega)⟩, .inl ⟨a, rfl, rfl, ?_, ?_, ha⟩⟩
    · intro b hb
      have := List.any_eq_false.1 e4.2 b hb
      exact not_overlaps (by simpa using this)
    · rw [e2]; exact roundUp_mod _ _
  · rw [e1] at e
    simp only at e
    cases e
    rw [r2]
    have hpi := hp i
    exact ⟨⟨rfl, rfl, rfl, rfl, rfl, fun _ => pos _ (by show 0 < roundUp _ _; omega)⟩, .inr ⟨rfl, rfl⟩⟩

theorem Rest.refl (h : UHeap) : Rest h h := ⟨rfl, rfl, rfl, rfl, rfl, id⟩

theorem Rest.trans {a b c : UHeap} (h : Rest a b) (h' : Rest b c) : Rest a c :=
  ⟨h'.free.trans h.free, h'.live.trans h.live, h'.pages.trans h.pages, h'.mem.trans h.mem, h'.mm.trans h.mm, fun p => h'.pos (h.pos p)⟩

theorem Fresh.of_maps {h g h' : UHeap} {a size : Nat} (f : Fresh g h' a size) (e : g.maps = h.maps) :
    Fresh h h' a size := ⟨by rw [f.maps, e], by rw [← e]; exact f.apart, f.align, f.pos⟩

theorem tryPage_spec {n my size : Nat} {ok : Nat → Nat → Bool} (hs : PageSize size) (fuel : Nat) :
    ∀ {i : Nat} {h h' : UHeap} {o : Outcome (Option Nat)}, (∀ c, 0 < (h.pagers c).sbrk) →
      h.tryPage n my size ok fuel i = (o, h') →
      Rest h h' ∧ ((∃ a, o = .ok (some a) ∧ Fresh h h' a size) ∨
        ((o = .ok none ∨ (o = .panic ∧ my = 0)) ∧ h'.maps = h.maps)) := by
  induction fuel with
  | zero =>
    intro i h h' o _ e
    cases e
    exact ⟨Rest.refl h, .inr ⟨.inl rfl, rfl⟩⟩
  | succ fuel ih =>
    intro i h h' o hp e
    unfold UHeap.tryPage at e
    cases hq : h.page ok i size with
    | mk x g =>
      rw [hq] at e
      obtain ⟨r, h1⟩ := page_spec hs hp hq
      rcases h1 with ⟨a, rfl, f⟩ | ⟨rfl, hm⟩
      · simp only at e
        cases e
        exact ⟨r, .inl ⟨a, rfl, f⟩⟩
      · simp only at e
        split at e
        · rename_i h0
          cases e
          exact ⟨r, .inr ⟨.inr ⟨rfl, h0⟩, hm⟩⟩
        · split at e
          · cases e
            exact ⟨r, .inr ⟨.inl rfl, hm⟩⟩
          · obtain ⟨r', h2⟩ := ih (r.pos hp) e
            refine ⟨r.trans r', ?_⟩
            rcases h2 with ⟨a, ea, f⟩ | ⟨ho, hm'⟩
            · exact .inl ⟨a, ea, f.of_maps hm⟩
            · exact .inr ⟨ho, hm'.trans hm⟩

/-- More is mapped. -/
theorem Inv.rest {k : HCfg} {h h' : UHeap} {objs : List UObj} (inv : Inv k h objs) (r : Rest h h')
    (hm : ∀ b ∈ h.maps, b ∈ h'.maps) : Inv k h' objs := by
  obtain ⟨r1, r2, r3, r4, r6, r5⟩ := r
  have ha : all k h' objs = all k h objs := by unfold all; rw [r1, r3, r6]
  refine ⟨r5 inv.pos, by rw [ha]; exact inv.disj, ?_, by rw [r2]; exact inv.live, inv.al,
    by rw [r1]; exact inv.nzf, inv.nzo⟩
  intro b hb a hx
  rw [ha] at hb
  obtain ⟨m, h1, h2⟩ := inv.cov b hb a hx
  exact ⟨m, hm m h1, h2⟩

theorem fresh_apart {k : HCfg} {h : UHeap} {objs : List UObj} (inv : Inv k h objs) {P : Block}
    (hf : ∀ b ∈ h.maps, Disjoint b P) : ∀ b ∈ all k h objs, Disjoint P b := by
  intro b hb a ⟨h1, h2⟩
  obtain ⟨m, hm, hx⟩ := inv.cov b hb a h2
  exact hf m hm a ⟨hx, h1⟩

/-! ## Slots -/

theorem slots_small {k : HCfg} {o : UObj} {objs : List UObj} (h : o.size ≤ k.maxAlloc) :
    slots k (o :: objs) = ⟨o.core, o.ptr, k.cls o.size⟩ :: slots k objs := by
  unfold slots
  rw [List.filter_cons_of_pos (by simpa using h)]
  rfl

theorem slots_other {k : HCfg} {o : UObj} {objs : List UObj} (h : ¬ o.size ≤ k.maxAlloc) :
    slots k (o :: objs) = slots k objs := by
  unfold slots
  rw [List.filter_cons_of_neg (by simpa using h)]

theorem slot_some {k : HCfg} {h h' : UHeap} {c size align a : Nat} {e : Env}
    (hs : h.slot k c size align e = some (a, h')) :
    ∃ s ∈ h.free, s.core = c ∧ s.size = k.cls size ∧ s.addr % align = 0 ∧ a = s.addr ∧
      h' = { h with
        free := h.free.erase s
        live := s :: h.live
        mem := Heap.scribble k h.pages e.noise h.mem } := by
  unfold UHeap.slot at hs
  split at hs
  · rename_i s hg
    cases hs
    have hm := List.mem_of_getElem? hg
    simp only [UHeap.fits, List.mem_filter, Bool.and_eq_true, decide_eq_true_eq] at hm
    exact ⟨s, hm.1, hm.2.1.1, hm.2.1.2, hm.2.2, rfl, rfl⟩
  · cases hs

theorem slot_none {k : HCfg} {h : UHeap} {c size align : Nat} {e : Env} :
    h.slot k c size align e = none ↔ ∀ s ∈ h.free, s.core = c → s.size = k.cls size → s.addr % align ≠ 0 := by
  unfold UHeap.slot
  constructor
  · intro hs s h1 h2 h3 h4
    have hm : s ∈ h.fits k c size align := by
      simp only [UHeap.fits, List.mem_filter, Bool.and_eq_true, decide_eq_true_eq]
      exact ⟨h1, ⟨h2, h3⟩, h4⟩
    have hl : 0 < (h.fits k c size align).length := List.length_pos_of_mem hm
    have : e.pick % (h.fits k c size align).length < (h.fits k c size align).length := Nat.mod_lt _ hl
    rw [List.getElem?_eq_getElem this] at hs
    cases hs
  · intro hs
    have : h.fits k c size align = [] := by
      rw [List.eq_nil_iff_forall_not_mem]
      intro s hm
      simp only [UHeap.fits, List.mem_filter, Bool.and_eq_true, decide_eq_true_eq] at hm
      exact hs s hm.1 hm.2.1.1 hm.2.1.2 hm.2.2
    rw [this]
    rfl

/-- A slot is handed out. -/
theorem Inv.slotOut {k : HCfg} (hk : CfgOk k) {h h' : UHeap} {objs : List UObj} (inv : Inv k h objs)
    {c size align a : Nat} {e : Env} (hz : size ≤ k.maxAlloc) (hs : h.slot k c size align e = some (a, h')) :
    Same h.mem h'.mem (owned h objs) ∧ Inv k h' (⟨c, a, size, align⟩ :: objs) := by
  obtain ⟨s, h1, h2, h3, h4, rfl, rfl⟩ := slot_some hs
  refine ⟨inv.scribble hk e.noise, ?_⟩
  have hr : res k ⟨c, s.addr, size, align⟩ = s.block := by
    unfold res CSlot.block
    rw [if_pos hz, h3]
  have hp : (all k { h with
        free := h.free.erase s
        live := s :: h.live
        mem := Heap.scribble k h.pages e.noise h.mem } (⟨c, s.addr, size, align⟩ :: objs)).Perm (all k h objs) := by
    unfold all
    simp only [List.map_cons, hr]
    have p1 : (h.free.map CSlot.block).Perm (s.block :: (h.free.erase s).map CSlot.block) :=
      (List.perm_cons_erase h1).map CSlot.block
    rw [List.perm_iff_count] at p1 ⊢
    intro b
    have := p1 b
    simp only [List.count_append, List.count_cons] at this ⊢
    omega
  refine ⟨inv.pos, allDisjoint_perm inv.disj hp.symm, fun b hb => inv.cov b (hp.mem_iff.1 hb), ?_, ?_, ?_, ?_⟩
  · rw [slots_small hz]
    have : s = ⟨c, s.addr, k.cls size⟩ := by cases s; simp_all
    show (s :: h.live).Perm _
    rw [this]
    exact inv.live.cons _
  · intro o ho
    rcases List.mem_cons.1 ho with rfl | ho
    · exact h4
    · exact inv.al o ho
  · exact fun t ht => inv.nzf t (List.mem_of_mem_erase ht)
  · intro o ho
    rcases List.mem_cons.1 ho with rfl | ho
    · exact inv.nzf s h1
    · exact inv.nzo o ho

/-- A page is cut into slots. -/
theorem Inv.refill {k : HCfg} (hk : CfgOk k) {h g : UHeap} {objs : List UObj} (inv : Inv k h objs) (r : Rest h g)
    {c a psize size : Nat} {e : Env} (f : Fresh h g a psize) (hs : PageSize psize) (hz : size ≤ k.maxAlloc) :
    Same h.mem (g.refill k c a psize size e).mem (owned h objs) ∧ Inv k (g.refill k c a psize size e) objs := by
  have hover : k.overhead ≤ psize := by
    have := hk.over
    rcases hs with rfl | rfl
    · exact this
    · exact Nat.le_trans this (by rw [BASE_eq, LARGE_eq]; decide)
  have ig : Inv k g objs := inv.rest r (by rw [f.maps]; exact fun b hb => List.mem_cons_of_mem _ hb)
  have hc := (hk.le _ hz).2
  have hms : ∀ s ∈ slotsOf k ⟨a, psize, 0⟩ (k.cls size), s.size = k.cls size ∧ a ≤ s.addr ∧
      s.addr + s.size ≤ a + (psize - k.overhead) := by
    intro s hs
    have := mem_slotsOf hs
    rw [hk.kb] at this
    simpa using this
  have hmeta : metaOf k ⟨a, psize, 0⟩ = ⟨a + (psize - k.overhead), k.overhead⟩ := by
    unfold metaOf; rw [hk.kb]; simp
  -- the blocks of the page
  have hb1 : ∀ b ∈ (slotsOf k ⟨a, psize, 0⟩ (k.cls size)).map Heap.Slot.block ++ [metaOf k ⟨a, psize, 0⟩],
      Inside b ⟨a, psize⟩ := by
    intro b hb
    rcases List.mem_append.1 hb with hb | hb
    · obtain ⟨s, h1, rfl⟩ := List.mem_map.1 hb
      obtain ⟨h2, h3, h4⟩ := hms s h1
      refine inside_of_le h3 ?_
      show s.addr + s.size ≤ a + psize
      omega
    · rw [List.mem_singleton.1 hb, hmeta]
      refine inside_of_le (by show a ≤ a + _; omega) ?_
      show a + (psize - k.overhead) + k.overhead ≤ a + psize
      omega
  have hb2 : AllDisjoint ((slotsOf k ⟨a, psize, 0⟩ (k.cls size)).map Heap.Slot.block ++ [metaOf k ⟨a, psize, 0⟩]) := by
    refine List.pairwise_append.2 ⟨slotsOf_disjoint _ _ _, List.pairwise_singleton _ _, ?_⟩
    intro b hb b' hb'
    obtain ⟨s, h1, rfl⟩ := List.mem_map.1 hb
    obtain ⟨h2, h3, h4⟩ := hms s h1
    rw [List.mem_singleton.1 hb', hmeta]
    exact disjoint_of_le h4
  have hfree : ((g.refill k c a psize size e).free.map CSlot.block) =
      (slotsOf k ⟨a, psize, 0⟩ (k.cls size)).map Heap.Slot.block ++ g.free.map CSlot.block := by
    unfold UHeap.refill
    simp only [List.map_append, List.map_map]
    rfl
  have hp : (all k (g.refill k c a psize size e) objs).Perm
      (((slotsOf k ⟨a, psize, 0⟩ (k.cls size)).map Heap.Slot.block ++ [metaOf k ⟨a, psize, 0⟩]) ++ all k g objs) := by
    unfold all
    rw [hfree]
    show (_ ++ (metaOf k ⟨a, psize, 0⟩ :: g.pages.map (metaOf k)) ++ (g.mm ++ _)).Perm _
    rw [List.perm_iff_count]
    intro b
    simp only [List.count_append, List.count_cons, List.count_nil]
    omega
  have hap := fresh_apart inv f.apart
  have hag : all k g objs = all k h objs := by unfold all; rw [r.free, r.pages, r.mm]
  have hinv : Inv k { g.refill k c a psize size e with mem := g.mem } objs := by
    refine ⟨ig.pos, ?_, ?_, ig.live, ig.al, ?_, ig.nzo⟩
    · refine allDisjoint_perm (List.pairwise_append.2 ⟨hb2, ig.disj, ?_⟩) hp.symm
      intro b hb b' hb'
      rw [hag] at hb'
      exact (hap b' hb').mono (hb1 b hb) (fun _ h => h)
    · intro b hb x hx
      rcases List.mem_append.1 (hp.mem_iff.1 hb) with hb | hb
      · refine ⟨⟨a, psize⟩, ?_, hb1 b hb x hx⟩
        show _ ∈ g.maps
        rw [f.maps]; exact List.mem_cons_self
      · exact ig.cov b hb x hx
    · intro s hs'
      rcases List.mem_append.1 (show s ∈ (slotsOf k ⟨a, psize, 0⟩ (k.cls size)).map
          (fun s => (⟨c, s.addr, s.size⟩ : CSlot)) ++ g.free from hs') with hs' | hs'
      · obtain ⟨t, h1, rfl⟩ := List.mem_map.1 hs'
        have := (hms t h1).2.1
        have := f.pos
        show 0 < t.addr
        omega
      · exact ig.nzf s hs'
  refine ⟨?_, hinv.mem (g.refill k c a psize size e).mem⟩
  have := (hinv.scribble hk e.noise).own (h := h) r.mm
  rw [r.mem] at this
  show Same h.mem (Heap.scribble k (⟨a, psize, 0⟩ :: g.pages) e.noise g.mem) (owned h objs)
  rw [r.mem]
  exact this

/-- A fresh block becomes an object. -/
theorem Inv.blockOut {k : HCfg} {h g : UHeap} {objs : List UObj} (inv : Inv k h objs) (r : Rest h g)
    {o : UObj} (hsub : ∀ b ∈ h.maps, b ∈ g.maps) (hbig : ¬ o.size ≤ k.maxAlloc)
    (hap : ∀ b ∈ h.maps, Disjoint b (res k o)) (hcov : ∀ a, (res k o).Has a → Mapped g a)
    (hal : o.ptr % o.align = 0) (hpos : 0 < o.ptr) : Inv k g (o :: objs) := by
  have ig : Inv k g objs := inv.rest r hsub
  have hag : all k g objs = all k h objs := by unfold all; rw [r.free, r.pages, r.mm]
  have hp : (all k g (o :: objs)).Perm (res k o :: all k g objs) := by
    unfold all
    rw [List.perm_iff_count]
    intro b
    simp only [List.map_cons, List.count_append, List.count_cons]
    omega
  refine ⟨ig.pos, ?_, ?_, by rw [slots_other hbig]; exact ig.live, ?_, ig.nzf, ?_⟩
  · refine allDisjoint_perm (List.pairwise_cons.2 ⟨?_, ig.disj⟩) hp.symm
    rw [hag]
    exact fresh_apart inv hap
  · intro b hb
    rcases List.mem_cons.1 (hp.mem_iff.1 hb) with rfl | hb
    · exact hcov
    · exact ig.cov b hb
  · intro x hx
    rcases List.mem_cons.1 hx with rfl | hx
    · exact hal
    · exact ig.al x hx
  · intro x hx
    rcases List.mem_cons.1 hx with rfl | hx
    · exact hpos
    · exact ig.nzo x hx

/-! ## Big objects -/

theorem overlaps_false {b c : Block} (h : Disjoint c b) (hb : 0 < b.len) : overlaps b c = false := by
  obtain ⟨x, m⟩ := b
  obtain ⟨y, l⟩ := c
  simp only [overlaps, Bool.and_eq_false_iff, decide_eq_false_iff_not]
  simp only [Disjoint, Block.Has] at h hb
  by_cases h1 : y ≤ x
  · have := h x
    omega
  · have := h y
    omega

theorem allocate_yes {p : Pager} {f : Nat → Nat → Bool} {size align : Nat} (h : roundUp p.sbrk (max align 4096) < p.limit)
    (hf : f (roundUp p.sbrk (max align 4096)) (roundUp size 4096) = true) :
    p.allocate f size align = (.ok (roundUp p.sbrk (max align 4096)),
      ⟨roundUp p.sbrk (max align 4096) + roundUp size 4096, p.limit⟩) := by
  unfold Pager.allocate
  simp only
  rw [if_neg (by omega), if_pos hf]

theorem page_yes {h : UHeap} {ok : Nat → Nat → Bool} {i size : Nat} (hs : PageSize size)
    (h1 : roundUp (h.pagers i).sbrk size < (h.pagers i).limit) (h2 : ok (roundUp (h.pagers i).sbrk size) size = true)
    (h3 : ∀ b ∈ h.maps, Disjoint b ⟨roundUp (h.pagers i).sbrk size, size⟩) :
    h.page ok i size = (some (roundUp (h.pagers i).sbrk size),
      { h with
        pagers := upd h.pagers i ⟨roundUp (h.pagers i).sbrk size + size, (h.pagers i).limit⟩
        maps := ⟨roundUp (h.pagers i).sbrk size, size⟩ :: h.maps }) := by
  obtain ⟨r1, r2, r3⟩ := hs.round
  have hk : h.kmap ok (roundUp (h.pagers i).sbrk size) size = true := by
    simp only [UHeap.kmap, h2, Bool.true_and, Bool.not_eq_true', List.any_eq_false]
    intro b hb
    rw [overlaps_false (h3 b hb) r3]
    exact Bool.false_ne_true
  have := allocate_yes (p := h.pagers i) (f := h.kmap ok) (size := size) (align := size) (by rw [r2]; exact h1)
    (by rw [r1, r2]; exact hk)
  rw [r1, r2] at this
  unfold UHeap.page
  rw [this]

theorem first_of {P : Nat → Prop} {B L m : Nat} (r : ∀ j < m + 1, P (B + j * L)) : P B := by
  have := r 0 (by omega)
  simpa using this

theorem next_of {P : Nat → Prop} {B L m : Nat} (r : ∀ j < m + 1, P (B + j * L)) : ∀ j < m, P (B + L + j * L) := by
  intro j hj
  have := r (j + 1) (by omega)
  have e : B + L + j * L = B + (j + 1) * L := by rw [Nat.add_mul, Nat.one_mul]; omega
  rw [e]
  exact this

theorem split_of {B L m a : Nat} (h2 : a < B + (m + 1) * L) : a < B + L ∨ (B + L ≤ a ∧ a < B + L + m * L) := by
  rw [Nat.add_mul, Nat.one_mul] at h2
  omega

theorem big_len {size L : Nat} (hL : 0 < L) : size ≤ (size + L - 1) / L * L := by
  have := Nat.lt_div_mul_add hL (a := size + L - 1)
  omega

theorem big_pos {size L : Nat} (hL : 0 < L) (h : L < size) : ¬ (size + L - 1) / L = 0 := by
  have := Nat.div_pos (a := size + L - 1) (b := L) (by omega) hL
  omega

theorem big_in {B L size x : Nat} (hL : 0 < L) (h1 : B ≤ x) (h2 : x < B + size) :
    (x - B) / L < (size + L - 1) / L ∧ Block.Has ⟨B + (x - B) / L * L, L⟩ x := by
  have h3 := big_len (size := size) hL
  refine ⟨Nat.div_lt_of_lt_mul (by rw [Nat.mul_comm]; omega), ?_, ?_⟩
  · show B + (x - B) / L * L ≤ x
    have := Nat.div_mul_le_self (x - B) L
    omega
  · show x < B + (x - B) / L * L + L
    have := Nat.lt_div_mul_add hL (a := x - B)
    omega

theorem roundUp_add {a L : Nat} (hL : 0 < L) (h : a % L = 0) : roundUp (a + L) L = a + L := by
  obtain ⟨q, rfl⟩ := Nat.dvd_of_mod_eq_zero h
  unfold roundUp
  have e : L * q + L + L - 1 = L * (q + 1) + (L - 1) := by rw [Nat.mul_add]; omega
  rw [e, Nat.mul_add_div hL, Nat.div_eq_of_lt (by omega)]
  rw [Nat.add_zero, Nat.add_mul, Nat.one_mul, Nat.mul_comm]

theorem LARGE_pos : 0 < LARGE := by rw [LARGE_eq]; decide

/-- A place for a large page. -/
def Place (h : UHeap) (c : Nat) (ok : Nat → Nat → Bool) (L x : Nat) : Prop :=
  x < (h.pagers c).limit ∧ ok x L = true ∧ ∀ b ∈ h.maps, Disjoint b ⟨x, L⟩

/-- The heap after a page of `L` bytes was mapped at `B`. -/
def grown (h : UHeap) (c L B : Nat) : UHeap :=
  { h with
    pagers := upd h.pagers c ⟨B + L, (h.pagers c).limit⟩
    maps := ⟨B, L⟩ :: h.maps }

theorem grown_sbrk {h : UHeap} {c L B : Nat} (hL : 0 < L) (hB : B % L = 0) :
    roundUp ((grown h c L B).pagers c).sbrk L = B + L := by
  simp only [grown, upd_same]
  exact roundUp_add hL hB

theorem Place.next {h : UHeap} {c m L B : Nat} {ok : Nat → Nat → Bool}
    (r : ∀ j < m + 1, Place h c ok L (B + j * L)) : ∀ j < m, Place (grown h c L B) c ok L (B + L + j * L) := by
  intro j hj
  obtain ⟨h1, h2, h3⟩ := next_of r j hj
  refine ⟨by simp only [grown, upd_same]; exact h1, h2, ?_⟩
  intro b hb
  rcases List.mem_cons.1 hb with rfl | hb
  · refine disjoint_of_le ?_
    show B + L ≤ B + L + j * L
    omega
  · exact h3 b hb

theorem Room.place {h : UHeap} {c m : Nat} {ok : Nat → Nat → Bool} (r : Room h c m ok) :
    ∀ j < m, Place h c ok LARGE (roundUp (h.pagers c).sbrk LARGE + j * LARGE) := r

theorem place_page {h : UHeap} {c B L : Nat} {ok : Nat → Nat → Bool} (hs : PageSize L)
    (e : roundUp (h.pagers c).sbrk L = B) (r : Place h c ok L B) :
    h.page ok c L = (some B, grown h c L B) := by
  subst e
  exact page_yes hs r.1 r.2.1 r.2.2

theorem grown_rest {h : UHeap} {c L B : Nat} (hB : 0 < B) : Rest h (grown h c L B) := by
  refine ⟨rfl, rfl, rfl, rfl, rfl, fun hp x => ?_⟩
  by_cases ec : x = c
  · subst ec; simp only [grown, upd_same]; omega
  · simp only [grown, upd, ec, if_false]; exact hp x

theorem bigPages_spec {n c L : Nat} {ok : Nat → Nat → Bool} (hn : 0 < n) (hL : L = LARGE) (m : Nat) :
    ∀ {h : UHeap} {first : Option Nat} {B : Nat}, B % L = 0 → 0 < B → roundUp (h.pagers c).sbrk L = B →
      (∀ j < m, Place h c ok L (B + j * L)) →
    ∃ h', h.bigPages n c ok m first = (.ok (if m = 0 then first else some (first.getD B)), h') ∧ Rest h h' ∧
      (∀ b ∈ h.maps, b ∈ h'.maps) ∧ ∀ a, B ≤ a → a < B + m * L → Mapped h' a := by
  have hLp : 0 < L := by rw [hL]; exact LARGE_pos
  have hps : PageSize L := .inr hL
  induction m with
  | zero =>
    intro h first B _ _ _ _
    exact ⟨h, rfl, Rest.refl h, fun _ h => h, fun a h1 h2 => by omega⟩
  | succ m ih =>
    intro h first B hB hpos eB r
    obtain ⟨n, rfl⟩ : ∃ x, n = x + 1 := ⟨n - 1, by omega⟩
    have hpg := place_page hps eB (first_of r)
    obtain ⟨h', e, r', hm, hc⟩ := ih (h := grown h c L B) (first := some (first.getD B)) (B := B + L)
      (by rw [Nat.add_mod_right]; exact hB) (by omega) (grown_sbrk hLp hB) (Place.next r)
    refine ⟨h', ?_, (grown_rest hpos).trans r', fun b hb => hm b (List.mem_cons_of_mem _ hb), ?_⟩
    · rw [hL] at hpg
      simp only [UHeap.bigPages, UHeap.tryPage, hpg]
      rw [← hL, e]
      by_cases h0 : m = 0 <;> simp [h0]
    · intro a h1 h2
      rcases split_of h2 with hx | ⟨h3, h4⟩
      · exact ⟨⟨B, L⟩, hm _ List.mem_cons_self, h1, hx⟩
      · exact hc a h3 h4

/-! ## The operations -/

theorem Inv.bigOut {k : HCfg} {n : Nat} (hn : 0 < n) {h h' : UHeap} {objs : List UObj} (inv : Inv k h objs)
    {c size align L : Nat} {ok : Nat → Nat → Bool} (eL : L = LARGE) (hal : L % align = 0) (hL : L < size)
    (hz : ¬ size ≤ k.maxAlloc)
    (room : ∀ j < (size + L - 1) / L, Place h c ok L (roundUp (h.pagers c).sbrk L + j * L))
    {o : Outcome (Option Nat)} (ha : h.bigPages n c ok ((size + L - 1) / L) none = (o, h')) :
    Same h.mem h'.mem (owned h objs) ∧
    ((∃ p, o = .ok (some p) ∧ Inv k h' (⟨c, p, size, align⟩ :: objs)) ∨ (o = .ok none ∧ Inv k h' objs)) := by
  have hLp : 0 < L := by rw [eL]; exact LARGE_pos
  have hBm : roundUp (h.pagers c).sbrk L % L = 0 := roundUp_mod _ _
  have hBp : 0 < roundUp (h.pagers c).sbrk L := by
    have := roundUp_ge (h.pagers c).sbrk L hLp
    have := inv.pos c
    omega
  generalize eB : roundUp (h.pagers c).sbrk L = B at *
  obtain ⟨g, e1, r, hm, hc⟩ := bigPages_spec (first := none) hn eL _ hBm hBp eB room
  rw [e1, if_neg (big_pos hLp hL)] at ha
  cases ha
  refine ⟨by rw [r.mem]; exact Same.refl _ _, .inl ⟨B, rfl, ?_⟩⟩
  have hres : res k ⟨c, B, size, align⟩ = ⟨B, size⟩ := by
    unfold res; rw [if_neg hz, if_neg (by rw [← eL]; show ¬ size ≤ L; omega)]
  refine inv.blockOut r hm hz ?_ ?_ (mod_trans hal hBm) hBp
  · rw [hres]
    intro b hb x ⟨h1, h2⟩
    obtain ⟨h3, h4⟩ := big_in hLp h2.1 h2.2
    exact (room _ h3).2.2 b hb x ⟨h1, h4⟩
  · rw [hres]
    intro x hx
    refine hc x hx.1 ?_
    have h5 : x < B + size := hx.2
    have := big_len (size := size) hLp
    omega

theorem psize_ok (k : HCfg) (size : Nat) : PageSize (if size ≤ k.maxBase then BASE else LARGE) := by
  split
  · exact .inl rfl
  · exact .inr rfl

theorem Inv.alloc {k : HCfg} (hk : CfgOk k) {n : Nat} (hn : 0 < n) {h h' : UHeap} {objs : List UObj} (inv : Inv k h objs)
    {c size align : Nat} {e : Env} (fr : Fair h c size align e) {o : Outcome (Option Nat)}
    (ha : h.alloc k n c size align e = (o, h')) (ho : o ≠ .panic) :
    Same h.mem h'.mem (owned h objs) ∧
    ((∃ p, o = .ok (some p) ∧ Inv k h' (⟨c, p, size, align⟩ :: objs)) ∨ (o = .ok none ∧ Inv k h' objs)) := by
  unfold UHeap.alloc at ha
  split at ha
  · rename_i hz
    split at ha
    · rename_i a g hs
      cases ha
      obtain ⟨h1, h2⟩ := inv.slotOut hk hz hs
      exact ⟨h1, .inl ⟨a, rfl, h2⟩⟩
    · simp only at ha
      split at ha
      · rename_i a g hg
        obtain ⟨r, h1⟩ := tryPage_spec (psize_ok k size) n inv.pos hg
        rcases h1 with ⟨a', ea, f⟩ | ⟨h1, _⟩
        · cases ea
          obtain ⟨s1, i1⟩ := inv.refill hk r f (psize_ok k size) hz (c := c) (e := e)
          split at ha
          · rename_i q g' hs
            cases ha
            obtain ⟨s2, i2⟩ := i1.slotOut hk hz hs
            exact ⟨s1.trans (s2.own r.mm), .inl ⟨q, rfl, i2⟩⟩
          · cases ha; exact absurd rfl ho
        · rcases h1 with h1 | ⟨h1, _⟩ <;> cases h1
      · rename_i hx
        obtain ⟨r, h1⟩ := tryPage_spec (psize_ok k size) n inv.pos ha
        rcases h1 with ⟨a', rfl, f⟩ | ⟨h1, hm⟩
        · exact absurd ha (hx a' h')
        · rcases h1 with rfl | ⟨rfl, _⟩
          · refine ⟨by rw [r.mem]; exact Same.refl _ _, .inr ⟨rfl, inv.rest r (by rw [hm]; exact fun _ h => h)⟩⟩
          · exact absurd rfl ho
  · rename_i hz
    split at ha
    · rename_i hL
      split at ha
      · cases ha; exact absurd rfl ho
      · rename_i hx
        obtain ⟨r, h1⟩ := tryPage_spec (.inr rfl) n inv.pos ha
        rcases h1 with ⟨a, rfl, f⟩ | ⟨h1, hm⟩
        · refine ⟨by rw [r.mem]; exact Same.refl _ _, .inl ⟨a, rfl, ?_⟩⟩
          have hres : res k ⟨c, a, size, align⟩ = ⟨a, LARGE⟩ := by
            unfold res; rw [if_neg hz, if_pos hL]
          refine inv.blockOut r (by rw [f.maps]; exact fun b hb => List.mem_cons_of_mem _ hb) hz ?_ ?_ ?_ f.pos
          · rw [hres]; exact f.apart
          · rw [hres]
            exact fun x hx => ⟨_, by rw [f.maps]; exact List.mem_cons_self, hx⟩
          · exact mod_trans fr.align.2 f.align
        · rcases h1 with rfl | ⟨rfl, _⟩
          · exact absurd ha (hx h')
          · exact absurd rfl ho
    · rename_i hL
      exact inv.bigOut hn rfl fr.align.2 (by omega) hz (fr.room (by omega)).place ha

theorem Inv.dealloc {k : HCfg} (hk : CfgOk k) {h h' : UHeap} {objs : List UObj} {o : UObj} (inv : Inv k h (o :: objs))
    {e : Env} {r : Outcome Unit} (hd : h.dealloc k o.core o.ptr o.size e = (r, h')) :
    r = .ok () ∧ Same h.mem h'.mem (owned h (o :: objs)) ∧ Inv k h' objs := by
  unfold UHeap.dealloc at hd
  split at hd
  · rename_i hz
    have h0 := inv.nzo o List.mem_cons_self
    rw [if_neg (by omega)] at hd
    have hl := inv.live
    rw [slots_small hz] at hl
    rw [if_pos (hl.mem_iff.2 List.mem_cons_self)] at hd
    cases hd
    refine ⟨rfl, inv.scribble hk e.noise, ?_⟩
    have hr : res k o = CSlot.block ⟨o.core, o.ptr, k.cls o.size⟩ := by
      unfold res CSlot.block
      rw [if_pos hz]
    have hp : (all k { h with
        free := ⟨o.core, o.ptr, k.cls o.size⟩ :: h.free
        live := h.live.erase ⟨o.core, o.ptr, k.cls o.size⟩
        mem := Heap.scribble k h.pages e.noise h.mem } objs).Perm (all k h (o :: objs)) := by
      unfold all
      simp only [List.map_cons, hr]
      rw [List.perm_iff_count]
      intro b
      simp only [List.count_append, List.count_cons]
      omega
    refine ⟨inv.pos, allDisjoint_perm inv.disj hp.symm, fun b hb => inv.cov b (hp.mem_iff.1 hb), ?_,
      fun x hx => inv.al x (List.mem_cons_of_mem _ hx), ?_, fun x hx => inv.nzo x (List.mem_cons_of_mem _ hx)⟩
    · have := hl.erase ⟨o.core, o.ptr, k.cls o.size⟩
      rwa [List.erase_cons_head] at this
    · intro s hs
      rcases List.mem_cons.1 hs with rfl | hs
      · exact h0
      · exact inv.nzf s hs
  · rename_i hz
    cases hd
    refine ⟨rfl, Same.refl _ _, ?_⟩
    have hl := inv.live
    rw [slots_other hz] at hl
    have hsub : (all k h objs).Sublist (all k h (o :: objs)) := by
      unfold all
      exact List.Sublist.append_left (List.Sublist.append_left (List.Sublist.map _ (List.sublist_cons_self _ _)) _) _
    exact ⟨inv.pos, allDisjoint_sublist inv.disj hsub, fun b hb => inv.cov b (hsub.subset hb), hl,
      fun x hx => inv.al x (List.mem_cons_of_mem _ hx), inv.nzf, fun x hx => inv.nzo x (List.mem_cons_of_mem _ hx)⟩

/-- What the program owns never overlaps. -/
theorem Inv.apart {k : HCfg} (hk : CfgOk k) {h : UHeap} {objs : List UObj} (inv : Inv k h objs) :
    AllDisjoint (owned h objs) := by
  have hd := inv.disj
  unfold all AllDisjoint at hd
  obtain ⟨h1, h2, h3⟩ := List.pairwise_append.1 (List.pairwise_append.1 hd).2.1
  refine List.pairwise_append.2 ⟨h1, ?_, ?_⟩
  · rw [List.pairwise_map] at h2 ⊢
    exact h2.imp (fun h => h.mono (obj_inside hk _) (obj_inside hk _))
  · intro b hb b' hb'
    obtain ⟨o, ho, rfl⟩ := List.mem_map.1 hb'
    exact (h3 b hb (res k o) (List.mem_map_of_mem ho)).mono (fun _ h => h) (obj_inside hk o)

theorem owned_perm {h : UHeap} {q : UObj} {objs : List UObj} :
    (owned h (q :: objs)).Perm (q.block :: owned h objs) := by
  unfold owned
  rw [List.map_cons]
  exact List.perm_middle

/-- Copying into an object leaves the rest alone. -/
theorem copy_same {k : HCfg} (hk : CfgOk k) {h : UHeap} {objs : List UObj} {q : UObj} (inv : Inv k h (q :: objs))
    {src len : Nat} (hl : len ≤ q.size) : Same h.mem (copy h.mem src q.ptr len) (owned h objs) := by
  intro b hb a ha
  unfold copy
  rw [if_neg]
  intro ⟨h1, h2⟩
  have := (List.pairwise_cons.1 (allDisjoint_perm (inv.apart hk) owned_perm)).1 b hb
  exact this a ⟨⟨h1, by show _ < q.ptr + q.size; omega⟩, ha⟩

theorem bigPages_rest {n c : Nat} {ok : Nat → Nat → Bool} (m : Nat) : ∀ {h h' : UHeap} {first : Option Nat}
    {o : Outcome (Option Nat)}, (∀ c, 0 < (h.pagers c).sbrk) → h.bigPages n c ok m first = (o, h') → Rest h h' := by
  induction m with
  | zero => intro h h' first o _ e; cases e; exact Rest.refl h
  | succ m ih =>
    intro h h' first o hp e
    unfold UHeap.bigPages at e
    split at e
    · rename_i a g hg
      obtain ⟨r, _⟩ := tryPage_spec (.inr rfl) n hp hg
      exact r.trans (ih (r.pos hp) e)
    · rename_i g hx
      cases e
      exact (tryPage_spec (.inr rfl) n hp (show UHeap.tryPage n c LARGE ok n c h = (_, _) from rfl)).1.trans (by
        rw [‹UHeap.tryPage n c LARGE ok n c h = _›]; exact Rest.refl _)

theorem alloc_mm {k : HCfg} {n : Nat} {h h' : UHeap} (hp : ∀ c, 0 < (h.pagers c).sbrk) {c size align : Nat} {e : Env}
    {o : Outcome (Option Nat)} (ha : h.alloc k n c size align e = (o, h')) : h'.mm = h.mm := by
  unfold UHeap.alloc at ha
  split at ha
  · split at ha
    · rename_i hs
      cases ha
      obtain ⟨s, _, _, _, _, _, rfl⟩ := slot_some hs
      rfl
    · simp only at ha
      split at ha
      · rename_i a g hg
        have r := (tryPage_spec (psize_ok k size) n hp hg).1
        split at ha
        · rename_i hs
          cases ha
          obtain ⟨s, _, _, _, _, _, rfl⟩ := slot_some hs
          exact r.mm
        · cases ha; exact r.mm
      · exact (tryPage_spec (psize_ok k size) n hp ha).1.mm
  · split at ha
    · split at ha
      · rename_i hg
        cases ha
        exact (tryPage_spec (.inr rfl) n hp hg).1.mm
      · exact (tryPage_spec (.inr rfl) n hp ha).1.mm
    · exact (bigPages_rest _ hp ha).mm

theorem dealloc_mm {k : HCfg} {h h' : UHeap} {c ptr size : Nat} {e : Env} {o : Outcome Unit}
    (hd : h.dealloc k c ptr size e = (o, h')) : h'.mm = h.mm := by
  unfold UHeap.dealloc at hd
  split at hd
  · split at hd
    · cases hd; rfl
    · split at hd <;> cases hd <;> rfl
  · cases hd; rfl

/-- The same object with another size of the same class. -/
theorem Inv.resize {k : HCfg} {h : UHeap} {objs : List UObj} {o : UObj} (inv : Inv k h (o :: objs)) {new : Nat}
    (hz : o.size ≤ k.maxAlloc) (hn : new ≤ k.maxAlloc) (hc : k.cls new = k.cls o.size) :
    Inv k h (⟨o.core, o.ptr, new, o.align⟩ :: objs) := by
  have hr : res k ⟨o.core, o.ptr, new, o.align⟩ = res k o := by
    unfold res; rw [if_pos hn, if_pos hz, hc]
  have ha : all k h (⟨o.core, o.ptr, new, o.align⟩ :: objs) = all k h (o :: objs) := by
    unfold all; simp only [List.map_cons, hr]
  refine ⟨inv.pos, by rw [ha]; exact inv.disj, by rw [ha]; exact inv.cov, ?_, ?_, inv.nzf, ?_⟩
  · have hl := inv.live
    rw [slots_small hz] at hl
    rw [slots_small hn]
    simpa [hc] using hl
  · intro x hx
    rcases List.mem_cons.1 hx with rfl | hx
    · exact inv.al o List.mem_cons_self
    · exact inv.al x (List.mem_cons_of_mem _ hx)
  · intro x hx
    rcases List.mem_cons.1 hx with rfl | hx
    · exact inv.nzo o List.mem_cons_self
    · exact inv.nzo x (List.mem_cons_of_mem _ hx)

/-- `realloc`: the other objects and the contents are kept. -/
theorem Inv.realloc {k : HCfg} (hk : CfgOk k) {n : Nat} (hn : 0 < n) {h h' : UHeap} {objs : List UObj} {o : UObj}
    (inv : Inv k h (o :: objs)) {new : Nat} {e : Env} (fr : Fair h o.core new o.align e)
    (hc : keeps k o.size new → new ≤ k.maxAlloc ∧ k.cls new = k.cls o.size) {r : Outcome (Option Nat)}
    (hr : h.realloc k n o.core o.ptr o.size o.align new e = (r, h')) (ho : r ≠ .panic) :
    Same h.mem h'.mem (owned h objs) ∧
    ((∃ q, r = .ok (some q) ∧ Inv k h' (⟨o.core, q, new, o.align⟩ :: objs) ∧
        ∀ i < min o.size new, h'.mem (q + i) = h.mem (o.ptr + i)) ∨
      (r = .ok none ∧ Same h.mem h'.mem (owned h (o :: objs)) ∧ Inv k h' (o :: objs))) := by
  unfold UHeap.realloc at hr
  split at hr
  · rename_i hkp
    cases hr
    obtain ⟨h1, h2⟩ := hc hkp
    exact ⟨Same.refl _ _, .inl ⟨o.ptr, rfl, inv.resize hkp.1 h1 h2, fun _ _ => rfl⟩⟩
  · split at hr
    · rename_i q g hg
      obtain ⟨s1, h1⟩ := inv.alloc hk hn fr hg (by simp)
      rcases h1 with ⟨p, ep, i1⟩ | ⟨ep, _⟩
      · cases ep
        -- the copy
        have m1 := alloc_mm inv.pos hg
        have cs : Same g.mem (copy g.mem o.ptr q (min o.size new)) (owned g (o :: objs)) :=
          copy_same hk (q := ⟨o.core, q, new, o.align⟩) i1 (Nat.min_le_right _ _)
        have i2 : Inv k { g with mem := copy g.mem o.ptr q (min o.size new) } (o :: ⟨o.core, q, new, o.align⟩ :: objs) :=
          (i1.perm (List.Perm.swap _ _ _)).mem _
        cases hd : UHeap.dealloc k { g with mem := copy g.mem o.ptr q (min o.size new) } o.core o.ptr o.size e with
        | mk x g' =>
          rw [hd] at hr
          obtain ⟨rfl, s3, i3⟩ := i2.dealloc hk hd
          simp only at hr
          cases hr
          replace cs := cs.own (h := h) m1
          replace s3 := s3.own (h := h) m1
          refine ⟨?_, .inl ⟨q, rfl, i3, ?_⟩⟩
          · exact ((s1.sub owned_cons).trans (cs.sub owned_cons)).trans
              (s3.sub fun b hb => owned_cons b (owned_cons b hb))
          · intro i hi
            have e1 := s3 (UObj.block ⟨o.core, q, new, o.align⟩)
              (owned_obj (List.mem_cons_of_mem _ List.mem_cons_self)) (q + i)
              ⟨by show q ≤ q + i; omega, by show q + i < q + new; omega⟩
            rw [e1]
            show copy g.mem o.ptr q (min o.size new) (q + i) = _
            unfold copy
            rw [if_pos ⟨by omega, by omega⟩]
            have : q + i - q = i := by omega
            rw [this]
            exact s1 o.block (owned_obj List.mem_cons_self) (o.ptr + i)
              ⟨by show o.ptr ≤ o.ptr + i; omega, by show o.ptr + i < o.ptr + o.size; omega⟩
      · cases ep
    · rename_i hx
      obtain ⟨s1, h1⟩ := inv.alloc hk hn fr hr ho
      rcases h1 with ⟨p, rfl, i1⟩ | ⟨rfl, i1⟩
      · exact absurd hr (hx p h')
      · exact ⟨s1.sub owned_cons, .inr ⟨rfl, s1, i1⟩⟩

/-! ## `mmap` -/

theorem roundUp_mul {x L : Nat} (hL : 0 < L) (h : x % L = 0) : roundUp x L = x := by
  obtain ⟨q, rfl⟩ := Nat.dvd_of_mod_eq_zero h
  unfold roundUp
  have e : L * q + L - 1 = L * q + (L - 1) := by omega
  rw [e, Nat.mul_add_div hL, Nat.div_eq_of_lt (by omega), Nat.add_zero, Nat.mul_comm]

/-- One chunk. -/
theorem chunk_spec {h : UHeap} {c len L : Nat} {ok : Nat → Nat → Bool} (hL : L = LARGE) (hl : 0 < len)
    (hp : ∀ c, 0 < (h.pagers c).sbrk) {a : Nat} {p : Pager}
    (e : (h.pagers c).allocate (h.kmap ok) len L = (.ok a, p)) :
    a = roundUp (h.pagers c).sbrk L ∧ 0 < a ∧ p = ⟨a + roundUp len 4096, (h.pagers c).limit⟩ ∧
      ∀ b ∈ h.maps, Disjoint b ⟨a, roundUp len 4096⟩ := by
  have hm : max L 4096 = L := by rw [hL]; exact (PageSize.round (.inr rfl)).2.1
  have hLp : 0 < L := by rw [hL]; exact LARGE_pos
  rcases allocate_spec (h.pagers c) (h.kmap ok) len L with ⟨a', e1, e2, e3, e4⟩ | e1
  · rw [e1] at e
    cases e
    rw [hm] at e2
    have := roundUp_ge (h.pagers c).sbrk L hLp
    have := hp c
    refine ⟨e2, by omega, rfl, ?_⟩
    simp only [UHeap.kmap, Bool.and_eq_true, Bool.not_eq_true'] at e4
    intro b hb
    exact not_overlaps (by simpa using List.any_eq_false.1 e4.2 b hb)
  · rw [e1] at e
    cases e

theorem CHUNK_eq : CHUNK = 67108864 := by unfold CHUNK; rfl

theorem min_chunk (rem : Nat) (hr : rem ≠ 0) (C : Nat) (hC : 0 < C) :
    0 < min C rem ∧ min C rem ≤ rem ∧ (min C rem = rem ∨ (min C rem = C ∧ C < rem)) := by omega

theorem le_roundUp (n : Nat) : n ≤ roundUp n 4096 := roundUp_ge n 4096 (by decide)

theorem chunks_spec {c L : Nat} {ok : Nat → Nat → Bool} (hL : L = LARGE) (fuel : Nat) :
    ∀ {h h' : UHeap} {rem : Nat} {first o : Option Nat} {B : Nat}, rem ≤ fuel → (∀ c, 0 < (h.pagers c).sbrk) →
      roundUp (h.pagers c).sbrk L = B → h.chunks c ok fuel rem first = (.ok o, h') →
      Rest h h' ∧ (∀ b ∈ h.maps, b ∈ h'.maps) ∧ o = (if rem = 0 then first else some (first.getD B)) ∧
      ∀ a, B ≤ a → a < B + rem → Mapped h' a ∧ ∀ b ∈ h.maps, ¬ b.Has a := by
  have hLp : 0 < L := by rw [hL]; exact LARGE_pos
  have hCL : CHUNK % L = 0 := by rw [hL, LARGE_eq, CHUNK_eq]
  have hCp : 0 < CHUNK := by rw [CHUNK_eq]; decide
  have hCr : roundUp CHUNK 4096 = CHUNK := by rw [CHUNK_eq]; decide
  induction fuel with
  | zero =>
    intro h h' rem first o B hr hp eB e
    cases e
    have : rem = 0 := by omega
    subst this
    exact ⟨Rest.refl h, fun _ h => h, rfl, fun a h1 h2 => by omega⟩
  | succ fuel ih =>
    intro h h' rem first o B hr hp eB e
    unfold UHeap.chunks at e
    split at e
    · rename_i h0
      subst h0
      cases e
      exact ⟨Rest.refl h, fun _ h => h, rfl, fun a h1 h2 => by omega⟩
    · rename_i h0
      obtain ⟨m1, m2, m3⟩ := min_chunk rem h0 CHUNK hCp
      generalize hm : min CHUNK rem = m at *
      split at e
      · rename_i a p ha
        rw [← hL] at ha
        obtain ⟨rfl, h2, rfl, h4⟩ := chunk_spec hL m1 hp ha
        rw [eB] at e h2 h4
        have hpos : ∀ x, 0 < (upd h.pagers c ⟨B + roundUp m 4096, (h.pagers c).limit⟩ x).sbrk := by
          intro x
          by_cases ec : x = c
          · subst ec; rw [upd_same]; show 0 < B + _; omega
          · simp only [upd, ec, if_false]; exact hp x
        have hB : B % L = 0 := by rw [← eB]; exact roundUp_mod _ _
        obtain ⟨r, i1, i2, i3⟩ := ih (B := roundUp (B + roundUp m 4096) L) (by omega) hpos
          (by simp only [upd_same]) e
        have hr0 : Rest h { h with
            pagers := upd h.pagers c ⟨B + roundUp m 4096, (h.pagers c).limit⟩
            maps := ⟨B, roundUp m 4096⟩ :: h.maps } := ⟨rfl, rfl, rfl, rfl, rfl, fun _ => hpos⟩
        have hmr := le_roundUp m
        refine ⟨hr0.trans r, fun b hb => i1 b (List.mem_cons_of_mem _ hb), ?_, ?_⟩
        · rw [i2, if_neg h0]
          split
          · rfl
          · rfl
        · intro a ha1 ha2
          by_cases hx : a < B + roundUp m 4096
          · exact ⟨⟨_, i1 _ List.mem_cons_self, ha1, hx⟩, fun b hb hh => h4 b hb a ⟨hh, ha1, hx⟩⟩
          · rcases m3 with m3 | ⟨m3, m4⟩
            · omega
            · rw [m3, hCr] at hx i3
              have e5 : roundUp (B + CHUNK) L = B + CHUNK :=
                roundUp_mul hLp (by rw [Nat.add_mod, hB, hCL]; exact Nat.zero_mod L)
              rw [e5] at i3
              obtain ⟨i4, i5⟩ := i3 a (by omega) (by omega)
              exact ⟨i4, fun b hb => i5 b (List.mem_cons_of_mem _ hb)⟩
      · cases e

theorem mmap_spec {h h' : UHeap} {c addr len p L : Nat} {ok : Nat → Nat → Bool} (hL : L = LARGE)
    (hp : ∀ c, 0 < (h.pagers c).sbrk) (e : h.mmap c addr len ok = (.ok p, h')) :
    addr = 0 ∧ 4096 < len ∧ p = roundUp (h.pagers c).sbrk L ∧ ∃ g, Rest h g ∧ (∀ b ∈ h.maps, b ∈ g.maps) ∧
      h' = { g with mm := ⟨p, len⟩ :: g.mm } ∧ ∀ a, Block.Has ⟨p, len⟩ a → Mapped g a ∧ ∀ b ∈ h.maps, ¬ b.Has a := by
  unfold UHeap.mmap at e
  split at e
  · cases e
  · rename_i h0
    split at e
    · rename_i q g hc
      cases e
      obtain ⟨r, h1, h2, h3⟩ := chunks_spec hL len (Nat.le_refl _) hp rfl hc
      generalize roundUp (h.pagers c).sbrk L = B at *
      rw [if_neg (by omega)] at h2
      cases h2
      exact ⟨by omega, by omega, rfl, g, r, h1, rfl, fun a ha => h3 a ha.1 ha.2⟩
    · cases e

theorem Inv.mmap {k : HCfg} {h h' : UHeap} {objs : List UObj} (inv : Inv k h objs) {c addr len p : Nat}
    {ok : Nat → Nat → Bool} (e : h.mmap c addr len ok = (.ok p, h')) :
    Inv k h' objs ∧ h'.mm = ⟨p, len⟩ :: h.mm ∧ h'.mem = h.mem := by
  obtain ⟨_, _, _, g, r, hm, rfl, hb⟩ := mmap_spec rfl inv.pos e
  have ig := inv.rest r hm
  refine ⟨?_, by rw [← r.mm], r.mem⟩
  have hp : (all k { g with mm := ⟨p, len⟩ :: g.mm } objs).Perm (⟨p, len⟩ :: all k g objs) := by
    unfold all
    rw [List.perm_iff_count]
    intro b
    simp only [List.cons_append, List.count_append, List.count_cons]
    omega
  have hag : all k g objs = all k h objs := by unfold all; rw [r.free, r.pages, r.mm]
  refine ⟨ig.pos, ?_, ?_, ig.live, ig.al, ig.nzf, ig.nzo⟩
  · refine allDisjoint_perm (List.pairwise_cons.2 ⟨?_, ig.disj⟩) hp.symm
    rw [hag]
    exact fresh_apart inv (fun b hb' a ha => (hb a ha.2).2 b hb' ha.1)
  · intro b hb' a ha
    rcases List.mem_cons.1 (hp.mem_iff.1 hb') with rfl | hb'
    · exact (hb a ha).1
    · exact ig.cov b hb' a ha

end NRK.UHeap
