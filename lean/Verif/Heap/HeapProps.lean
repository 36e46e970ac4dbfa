import Verif.Heap.HeapServe

/-!
# C63: the kernel heap

Every object the kernel heap hands out is aligned, big enough, backed by memory and shares no byte with any other
live object; the allocator never changes the bytes of a live object; `realloc` keeps the contents; allocation fails
only when there is no memory of the right kind; pages are neither lost nor given out twice.

All theorems are about every reachable state of the heap (`Run`, file `HeapSpec`).
-/

namespace NRK.Heap

open NRK.Mem NRK.Mem.Spec NRK.Machine

/-- Live objects are aligned and pairwise disjoint, whatever was allocated, resized and freed before. -/
theorem c63_objects {k : HCfg} (hk : k.Ok) {init : List Block} {h : Heap} {objs : List Obj} (r : Run k init h objs) :
    (objs.Pairwise fun a b => Disjoint a.block b.block) ∧ ∀ o ∈ objs, o.ptr % o.align = 0 :=
  ⟨(r.inv hk).apart hk, fun o ho => ((r.inv hk).al o ho).2.2.2⟩

/-- A new object is aligned, shares no byte with a live object, and getting it changes no byte of a live object.
A null pointer changes no byte of a live object either. -/
theorem c63_alloc {k : HCfg} (hk : k.Ok) {init : List Block} {h h' : Heap} {objs : List Obj} (r : Run k init h objs)
    {size align : Nat} (h0 : 0 < size) (h1 : 0 < align) (h2 : LARGE % align = 0) {e : Env} {o : Option Nat}
    (ha : h.alloc k size align e = (.ok o, h')) :
    (∀ q ∈ objs, ∀ i < q.size, h'.mem (q.ptr + i) = h.mem (q.ptr + i)) ∧
    ∀ p, o = some p → p % align = 0 ∧ ∀ q ∈ objs, Disjoint ⟨p, size⟩ q.block := by
  obtain ⟨s, hc⟩ := Inv.alloc hk h0 h1 h2 (r.inv hk) ha (by intro e; cases e)
  refine ⟨s, fun p hp => ?_⟩
  subst hp
  rcases hc with ⟨_, e, i⟩ | ⟨e, _⟩
  · cases e
    exact ⟨(i.al _ List.mem_cons_self).2.2.2, (List.pairwise_cons.1 (i.apart hk)).1⟩
  · cases e

/-- Objects of up to a large page: allocation never panics. -/
theorem c63_alloc_no_panic {k : HCfg} (hk : k.Ok) {init : List Block} {h : Heap} {objs : List Obj}
    (r : Run k init h objs) {size align : Nat} (h0 : 0 < size) (h1 : 0 < align) (h2 : LARGE % align = 0)
    (hs : size ≤ LARGE) (e : Env) : (h.alloc k size align e).1 ≠ .panic :=
  allocLoop_ne hk h0 h1 h2 hs 3 (r.inv hk)

/-- Objects of more than the slab allocator's limit and up to a large page: a null pointer is returned exactly if
neither the core nor its node has a large page. -/
theorem c63_page_null_iff {k : HCfg} (hk : k.Ok) {init : List Block} {h : Heap} {objs : List Obj}
    (r : Run k init h objs) {size : Nat} (align : Nat) (h1 : k.maxAlloc < size) (h2 : size ≤ LARGE)
    (hc : 0 < h.tc.capL) (e : Env) :
    (h.alloc k size align e).1 = .ok none ↔ h.tc.lp = [] ∧ h.nc.lp = [] := by
  obtain ⟨a, b⟩ := alloc_page hk (r.inv hk) (align := align) (e := e) h1 h2 hc
  constructor
  · intro hn
    by_cases ht : h.tc.lp = []
    · by_cases hm : h.nc.lp = []
      · exact ⟨ht, hm⟩
      · obtain ⟨p, hp⟩ := a (Or.inr hm)
        rw [hn] at hp; cases hp
    · obtain ⟨p, hp⟩ := a (Or.inl ht)
      rw [hn] at hp; cases hp
  · exact fun ⟨x, y⟩ => b x y

/-- Small objects with an alignment of up to a base page: a null pointer is returned exactly if no free slot of the
size class has the alignment and neither the core nor its node has a page of the kind the size class uses. -/
theorem c63_small_null_iff {k : HCfg} (hk : k.Ok) {init : List Block} {h : Heap} {objs : List Obj}
    (r : Run k init h objs) {size align : Nat} (hz : size ≤ k.maxAlloc) (ha : BASE % align = 0)
    (cB : 0 < h.tc.capB) (cL : 0 < h.tc.capL) (e : Env) :
    (h.alloc k size align e).1 = .ok none ↔
      (∀ s ∈ h.zone.free, s.size = k.cls size → s.addr % align ≠ 0) ∧
      (if size ≤ k.maxBase then h.tc.bp = [] ∧ h.nc.bp = [] else h.tc.lp = [] ∧ h.nc.lp = []) := by
  obtain ⟨a, b⟩ := alloc_small hk (r.inv hk) (align := align) (e := e) hz cB cL ha
  have hp : (if size ≤ k.maxBase then h.tc.bp = [] ∧ h.nc.bp = [] else h.tc.lp = [] ∧ h.nc.lp = []) ↔
      pagesFor k h.tc size = [] ∧ pagesFor k h.nc size = [] := by
    unfold pagesFor; split <;> exact Iff.rfl
  rw [hp]
  constructor
  · intro hn
    have hno : ∀ p, (h.alloc k size align e).1 ≠ .ok (some p) := by
      intro p hp; rw [hn] at hp; cases hp
    refine ⟨fun s h1 h2 h3 => ?_, ?_, ?_⟩
    · obtain ⟨p, hp⟩ := a (Or.inl ⟨s, h1, h2, h3⟩)
      exact hno p hp
    · refine Classical.byContradiction fun hx => ?_
      obtain ⟨p, hp⟩ := a (Or.inr (Or.inl hx))
      exact hno p hp
    · refine Classical.byContradiction fun hx => ?_
      obtain ⟨p, hp⟩ := a (Or.inr (Or.inr hx))
      exact hno p hp
  · exact fun ⟨x, y, z⟩ => b x y z

/-- Objects of more than a large page are backed by mapped memory, every byte of them. -/
theorem c63_big_backed {k : HCfg} (hk : k.Ok) {init : List Block} {h : Heap} {objs : List Obj} (r : Run k init h objs)
    {o : Obj} (ho : o ∈ objs) (hs : LARGE < o.size) : ∀ i < o.size, Backed h.mapped (o.ptr + i) :=
  (r.inv hk).back o ho hs

/-- `realloc` of a live object.  The other objects keep their bytes.  If it returns a pointer, the result is aligned,
starts with the bytes of the old object, and shares no byte with the other objects; if it returns null, the old object
keeps its bytes too. -/
theorem c63_realloc {k : HCfg} (hk : k.Ok) {init : List Block} {h h' : Heap} {objs : List Obj} (r : Run k init h objs)
    {ob : Obj} (hob : ob ∈ objs) {new : Nat} (h0 : 0 < new) {e : Env} {o : Option Nat}
    (ha : h.realloc k ob.ptr ob.size ob.align new e = (.ok o, h')) :
    (∀ q ∈ objs.erase ob, ∀ i < q.size, h'.mem (q.ptr + i) = h.mem (q.ptr + i)) ∧
    (∀ p, o = some p → p % ob.align = 0 ∧ (∀ i < min ob.size new, h'.mem (p + i) = h.mem (ob.ptr + i)) ∧
      ∀ q ∈ objs.erase ob, Disjoint ⟨p, new⟩ q.block) ∧
    (o = none → ∀ i < ob.size, h'.mem (ob.ptr + i) = h.mem (ob.ptr + i)) := by
  have inv := r.inv hk
  obtain ⟨s, hc⟩ := inv.realloc hk hob h0 ha (by intro e; cases e)
  refine ⟨s, fun p hp => ?_, fun hn => ?_⟩
  · subst hp
    rcases hc with ⟨_, e1, m, i⟩ | ⟨e1, _⟩
    · cases e1
      by_cases hi : inPlace k ob.size new
      · have hp : p = ob.ptr := by
          unfold Heap.realloc at ha
          rw [if_pos hi] at ha
          cases ha; rfl
        refine ⟨by rw [hp]; exact (inv.al ob hob).2.2.2, m, fun q hq => ?_⟩
        have hd := inv.disj
        unfold all AllDisjoint at hd
        have h2 := (List.pairwise_append.1 hd).2.1
        have h3 := allDisjoint_perm h2 ((erase_perm hob).map (res k))
        rw [List.map_cons] at h3
        have h4 := (List.pairwise_cons.1 h3).1 _ (List.mem_map_of_mem hq)
        refine h4.mono ?_ (obj_inside hk q)
        obtain ⟨i1, _, i3⟩ := hi
        unfold res
        rw [if_pos i1, hp]
        exact inside_of_le (Nat.le_refl _) (by show ob.ptr + new ≤ ob.ptr + k.cls ob.size; omega)
      · have i := i (fun h => absurd h hi)
        exact ⟨(i.al _ List.mem_cons_self).2.2.2, m, (List.pairwise_cons.1 (i.apart hk)).1⟩
    · cases e1
  · subst hn
    rcases hc with ⟨_, e1, _⟩ | ⟨_, s2, _⟩
    · cases e1
    · exact s2 ob hob

/-- `dealloc` of a live object changes no byte of the others.  It panics in exactly one case: the object is a large
page and the core's cache of large pages is full. -/
theorem c63_dealloc {k : HCfg} (hk : k.Ok) {init : List Block} {h : Heap} {objs : List Obj} (r : Run k init h objs)
    {o : Obj} (ho : o ∈ objs) (e : Env) :
    (∀ q ∈ objs, ∀ i < q.size, (h.dealloc k o.ptr o.size o.align e).2.mem (q.ptr + i) = h.mem (q.ptr + i)) ∧
    (h.dealloc k o.ptr o.size o.align e).1 =
      if k.maxAlloc < o.size ∧ o.size ≤ LARGE ∧ h.tc.lp.length = h.tc.capL then .panic else .ok () := by
  have inv := r.inv hk
  have hL := hk.large
  have hcap := inv.twf.capL
  rw [dealloc_exact hk inv ho e]
  by_cases h1 : o.size ≤ k.maxAlloc
  · rw [if_pos h1, if_neg (by omega)]
    exact ⟨inv.scribble hk _, rfl⟩
  · rw [if_neg h1]
    by_cases h2 : LARGE < o.size
    · rw [if_pos h2, if_neg (by omega)]
      exact ⟨fun _ _ _ _ => rfl, rfl⟩
    · rw [if_neg h2]
      by_cases h3 : h.tc.lp.length < h.tc.capL
      · rw [if_pos h3, if_neg (by omega)]
        exact ⟨fun _ _ _ _ => rfl, rfl⟩
      · rw [if_neg h3, if_pos (by omega)]
        exact ⟨fun _ _ _ _ => rfl, rfl⟩

/-- Pages are neither lost nor duplicated: what the two caches, the slab allocator, the page-sized objects and the
mapping of the big objects have is at any time the memory the heap started with. -/
theorem c63_conserved {k : HCfg} (hk : k.Ok) {init : List Block} {h : Heap} {objs : List Obj} (r : Run k init h objs) :
    (h.nc.held ++ h.tc.held ++ h.zone.pages.map Frame.block ++
      ((objs.filter fun o : Obj => decide (k.maxAlloc < o.size ∧ o.size ≤ LARGE)).map
        fun o => (⟨o.ptr - k.kb, LARGE⟩ : Block)) ++
      h.mapped.map (fun m : Nat × Frame => m.2.block)).Perm init := (r.inv hk).cons

/-- An object of up to a large page that is freed can be allocated again right away. -/
theorem c63_reuse {k : HCfg} (hk : k.Ok) {init : List Block} {h h' : Heap} {objs : List Obj} (r : Run k init h objs)
    {o : Obj} (ho : o ∈ objs) (hs : o.size ≤ LARGE) {e : Env}
    (hd : h.dealloc k o.ptr o.size o.align e = (.ok (), h')) (e' : Env) :
    ∃ p, (h'.alloc k o.size o.align e').1 = .ok (some p) := by
  have inv := r.inv hk
  have inv' := (Run.dealloc r ho hd).inv hk
  rw [dealloc_exact hk inv ho e] at hd
  by_cases h1 : o.size ≤ k.maxAlloc
  · rw [if_pos h1] at hd
    cases hd
    obtain ⟨p, h'', e1⟩ := tryAlloc_slot (k := k) (align := o.align) (e := e') (size := o.size)
      (s := ⟨o.ptr, k.cls o.size⟩) (h := { h with
          zone := { h.zone with
            free := ⟨o.ptr, k.cls o.size⟩ :: h.zone.free, live := h.zone.live.erase ⟨o.ptr, k.cls o.size⟩ }
          mem := scribble k h.zone.pages e.noise h.mem })
      h1 List.mem_cons_self rfl (inv.al o ho).2.2.2
    exact ⟨p, by unfold Heap.alloc; rw [allocLoop_ok e1]⟩
  · rw [if_neg h1, if_neg (by omega)] at hd
    by_cases h3 : h.tc.lp.length < h.tc.capL
    · rw [if_pos h3] at hd
      cases hd
      obtain ⟨p, h'', e1⟩ := tryAlloc_page (k := k) (align := o.align) (e := e') (size := o.size)
        inv'.twf (by omega) hs (by intro e; cases e)
      exact ⟨p, by unfold Heap.alloc; rw [allocLoop_ok e1]⟩
    · rw [if_neg h3] at hd
      cases hd

/-! ## Findings -/

/-- A `realloc` that shrinks an object below its size class keeps the pointer, and the object then carries the layout
of a smaller class.  Freeing it with that layout, as its owner must, is against the contract of the slab allocator:
no slot of the smaller class is at that address. -/
theorem c63_shrink_then_free {k : HCfg} (hk : k.Ok) {init : List Block} {h : Heap} {objs : List Obj}
    (r : Run k init h objs) {o : Obj} (ho : o ∈ objs) {new : Nat} (hi : inPlace k o.size new)
    (hc : k.cls new ≠ k.cls o.size) (e : Env) :
    h.realloc k o.ptr o.size o.align new e = (.ok (some o.ptr), h) ∧
    (h.dealloc k o.ptr new o.align e).1 = .panic := by
  have inv := r.inv hk
  obtain ⟨i1, i2, i3⟩ := hi
  have hn : new ≤ k.maxAlloc := Nat.le_trans i3 (hk.le _ i1).2.2
  refine ⟨by unfold Heap.realloc; rw [if_pos ⟨i1, i2, i3⟩], ?_⟩
  unfold Heap.dealloc
  rw [if_pos hn]
  unfold Zone.deallocate
  rw [if_neg]
  intro hm
  have hm := inv.live.symm.subset hm
  unfold slots at hm
  obtain ⟨q, hq, he⟩ := List.mem_map.1 hm
  obtain ⟨hq1, _⟩ := List.mem_filter.1 hq
  have e1 : q.ptr = o.ptr := congrArg Slot.addr he
  have e2 : k.cls q.size = k.cls new := congrArg Slot.size he
  have hne : q ≠ o := by
    intro e; subst e; exact hc e2.symm
  have hqo : q ∈ objs.erase o := (List.mem_erase_of_ne hne).2 hq1
  have hd := (List.pairwise_cons.1 ((inv.apart hk).perm (erase_perm ho) (fun h => h.symm))).1 q hqo
  have z1 := (inv.al o ho).1
  have z2 := (inv.al q hq1).1
  exact hd o.ptr ⟨⟨Nat.le_refl _, by show o.ptr < o.ptr + o.size; omega⟩,
    ⟨by show q.ptr ≤ o.ptr; omega, by show o.ptr < q.ptr + q.size; omega⟩⟩

/-- The memory of objects of more than a large page is never given back: `dealloc` does nothing. -/
theorem c63_big_never_freed {k : HCfg} (hk : k.Ok) (h : Heap) {ptr size align : Nat} (hs : LARGE < size) (e : Env) :
    h.dealloc k ptr size align e = (.ok (), h) := by
  have h1 := hk.large
  have h2 := hk.base
  unfold Heap.dealloc
  rw [if_neg (by omega), if_neg (by omega), if_neg (by omega)]

/-- Above the slab allocator's limit the alignment that was asked for plays no role. -/
theorem c63_alignment_ignored {k : HCfg} (h : Heap) {size : Nat} (hs : k.maxAlloc < size) (a b : Nat) (e : Env) :
    h.alloc k size a e = h.alloc k size b e := by
  have ht : ∀ h : Heap, h.tryAlloc k size a e = h.tryAlloc k size b e := by
    intro h
    unfold Heap.tryAlloc
    split
    · rename_i hz
      unfold allocatorFor at hz
      rw [if_neg (by omega)] at hz
      split at hz <;> cases hz
    · rfl
    · rfl
  have hl : ∀ n (h : Heap), Heap.allocLoop k size a e n h = Heap.allocLoop k size b e n h := by
    intro n
    induction n with
    | zero => intro h; rfl
    | succ n ih =>
      intro h
      unfold Heap.allocLoop
      rw [ht h]
      split
      · rfl
      · split
        · exact ih _
        · rfl
        · rfl
      · rfl
  exact hl 3 h

end NRK.Heap
