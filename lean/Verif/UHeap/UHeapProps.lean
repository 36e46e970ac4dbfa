import Verif.UHeap.UHeapLemmas
import Verif.Heap.HeapWitness

/-!
# C77: the heap of user programs

The code of slabmalloc is not in /repo; `CfgOk` says what is assumed of its constants.
-/

namespace NRK.UHeap

open NRK.Mem NRK.Mem.Spec NRK.Heap

variable {k : HCfg} {n : Nat}

theorem run_inv (hk : CfgOk k) (hn : 0 < n) {h : UHeap} {objs : List UObj} (r : Run k n h objs) : Inv k h objs := by
  induction r with
  | start hp =>
    refine ⟨hp, List.Pairwise.nil, ?_, List.Perm.nil, ?_, ?_, ?_⟩
    all_goals intro _ hb; exact absurd hb (by simp [all])
  | alloc _ fr ha ih =>
    rcases (ih.alloc hk hn fr ha (by simp)).2 with ⟨p, e, i⟩ | ⟨e, _⟩
    · cases e; exact i
    · cases e
  | allocNull _ fr ha ih =>
    rcases (ih.alloc hk hn fr ha (by simp)).2 with ⟨p, e, i⟩ | ⟨e, i⟩
    · cases e
    · exact i
  | dealloc _ ho hd ih => exact ((ih.perm (List.perm_cons_erase ho)).dealloc hk hd).2.2
  | realloc _ ho fr hc hr ih =>
    rcases ((ih.perm (List.perm_cons_erase ho)).realloc hk hn fr
      (fun hkp => ⟨Nat.le_trans hkp.2 (hk.top _ hkp.1), hc hkp⟩) hr (by simp)).2 with ⟨q, e, i, _⟩ | ⟨e, _⟩
    · cases e; exact i
    · cases e
  | @reallocNull h objs h' new o e _ ho fr hr ih =>
    have ip := ih.perm (List.perm_cons_erase ho)
    unfold UHeap.realloc at hr
    split at hr
    · cases hr
    · split at hr
      · split at hr <;> cases hr
      · rcases (ip.alloc hk hn fr hr (by simp)).2 with ⟨q, e, i⟩ | ⟨e, i⟩
        · cases e
        · exact i.perm (List.perm_cons_erase ho).symm
  | @relax h objs o al _ ho ha ih =>
    obtain ⟨i1, i2, i3, i4, i5, i6, i7⟩ := ih.perm (List.perm_cons_erase ho)
    have es : slots k (⟨o.core, o.ptr, o.size, al⟩ :: objs.erase o) = slots k (o :: objs.erase o) := by
      by_cases hz : o.size ≤ k.maxAlloc
      · rw [slots_small (o := o) hz, slots_small (o := ⟨o.core, o.ptr, o.size, al⟩) hz]
      · rw [slots_other (o := o) hz, slots_other (o := ⟨o.core, o.ptr, o.size, al⟩) hz]
    refine ⟨i1, i2, i3, by rw [es]; exact i4, ?_, i6, ?_⟩
    · intro x hx
      rcases List.mem_cons.1 hx with rfl | hx
      · exact ha
      · exact i5 x (List.mem_cons_of_mem _ hx)
    · intro x hx
      rcases List.mem_cons.1 hx with rfl | hx
      · exact i7 o List.mem_cons_self
      · exact i7 x (List.mem_cons_of_mem _ hx)
  | mmap _ e ih => exact (ih.mmap e).1
  | write _ _ _ ih => exact ih.mem _

/-- **C77.** Two objects never share a byte, whichever cores they were allocated on, and none shares a byte with
memory from `mmap`. -/
theorem c77_disjoint (hk : CfgOk k) (hn : 0 < n) {h : UHeap} {objs : List UObj} (r : Run k n h objs) :
    AllDisjoint (h.mm ++ objs.map UObj.block) := (run_inv hk hn r).apart hk

/-- **C77.** Objects are aligned as asked for, and not at address 0. -/
theorem c77_aligned (hk : CfgOk k) (hn : 0 < n) {h : UHeap} {objs : List UObj} (r : Run k n h objs) {o : UObj}
    (ho : o ∈ objs) : o.ptr % o.align = 0 ∧ 0 < o.ptr :=
  ⟨(run_inv hk hn r).al o ho, (run_inv hk hn r).nzo o ho⟩

/-- **C77.** Every byte of an object, and of memory from `mmap`, is memory that the kernel has mapped. -/
theorem c77_mapped (hk : CfgOk k) (hn : 0 < n) {h : UHeap} {objs : List UObj} (r : Run k n h objs) {b : Block}
    (hb : b ∈ h.mm ++ objs.map UObj.block) {a : Nat} (ha : b.Has a) : Mapped h a := by
  obtain ⟨b', h1, h2⟩ := owned_inside hk (h := h) (objs := objs) hb
  exact (run_inv hk hn r).cov b' (List.mem_append_right _ h1) a (h2 a ha)

/-- **C77.** Allocating changes no byte of an object or of memory from `mmap`. -/
theorem c77_alloc_keeps (hk : CfgOk k) (hn : 0 < n) {h h' : UHeap} {objs : List UObj} (r : Run k n h objs)
    {c size align : Nat} {e : Env} (fr : Fair h c size align e) {o : Option Nat}
    (ha : h.alloc k n c size align e = (.ok o, h')) : Same h.mem h'.mem (owned h objs) :=
  ((run_inv hk hn r).alloc hk hn fr ha (by simp)).1

/-- **C77.** Freeing an object on its core works, and changes no byte of another. -/
theorem c77_free (hk : CfgOk k) (hn : 0 < n) {h : UHeap} {objs : List UObj} (r : Run k n h objs) {o : UObj} {e : Env}
    (ho : o ∈ objs) :
    (h.dealloc k o.core o.ptr o.size e).1 = .ok () ∧
      Same h.mem (h.dealloc k o.core o.ptr o.size e).2.mem (owned h (objs.erase o)) := by
  have := ((run_inv hk hn r).perm (List.perm_cons_erase ho)).dealloc hk (e := e)
    (show h.dealloc k o.core o.ptr o.size e = (_, _) from rfl)
  exact ⟨this.1, this.2.1.sub owned_cons⟩

/-- **C77.** Resizing keeps the contents, up to the smaller of the two sizes, and changes no byte of another object. -/
theorem c77_realloc_keeps (hk : CfgOk k) (hn : 0 < n) {h h' : UHeap} {objs : List UObj} (r : Run k n h objs)
    {o : UObj} (ho : o ∈ objs) {new q : Nat} {e : Env} (fr : Fair h o.core new o.align e)
    (hc : keeps k o.size new → k.cls new = k.cls o.size)
    (hr : h.realloc k n o.core o.ptr o.size o.align new e = (.ok (some q), h')) :
    (∀ i < min o.size new, h'.mem (q + i) = h.mem (o.ptr + i)) ∧ Same h.mem h'.mem (owned h (objs.erase o)) := by
  obtain ⟨s, h1⟩ := ((run_inv hk hn r).perm (List.perm_cons_erase ho)).realloc hk hn fr
      (fun hkp => ⟨Nat.le_trans hkp.2 (hk.top _ hkp.1), hc hkp⟩) hr (by simp)
  rcases h1 with ⟨q', e, _, h2⟩ | ⟨e, _⟩
  · cases e; exact ⟨h2, s⟩
  · cases e

/-- **C77.** A resize that fails leaves the object and its contents as they were. -/
theorem c77_realloc_null (hk : CfgOk k) (hn : 0 < n) {h h' : UHeap} {objs : List UObj} (r : Run k n h objs)
    {o : UObj} (ho : o ∈ objs) {new : Nat} {e : Env} (fr : Fair h o.core new o.align e)
    (hr : h.realloc k n o.core o.ptr o.size o.align new e = (.ok none, h')) :
    Run k n h' objs ∧ Same h.mem h'.mem (owned h objs) := by
  refine ⟨.reallocNull r ho fr hr, ?_⟩
  unfold UHeap.realloc at hr
  split at hr
  · cases hr
  · split at hr
    · split at hr <;> cases hr
    · exact ((run_inv hk hn r).alloc hk hn fr hr (by simp)).1

/-- **C77.** The memory from `mmap` starts at a large page; none of its bytes was mapped before, and nothing is written. -/
theorem c77_mmap (hk : CfgOk k) (hn : 0 < n) {h h' : UHeap} {objs : List UObj} (r : Run k n h objs) {c len p : Nat}
    {ok : Nat → Nat → Bool} (e : h.mmap c 0 len ok = (.ok p, h')) :
    h'.mm = ⟨p, len⟩ :: h.mm ∧ h'.mem = h.mem ∧ p % LARGE = 0 ∧ ∀ a, p ≤ a → a < p + len → Mapped h' a ∧ ¬ Mapped h a := by
  have inv := run_inv hk hn r
  obtain ⟨_, h1, h2⟩ := inv.mmap e
  obtain ⟨_, _, h3, g, _, _, rfl, h4⟩ := mmap_spec rfl inv.pos e
  refine ⟨h1, h2, by rw [h3]; exact roundUp_mod _ _, fun a ha hb => ?_⟩
  obtain ⟨h5, h6⟩ := h4 a ⟨ha, hb⟩
  exact ⟨h5, fun ⟨b, hb1, hb2⟩ => h6 b hb1 hb2⟩

/-- **C77.** Memory of a freed small object is used again: an allocation of its size class on its core is served
without asking the kernel for memory. -/
theorem c77_reuse (hk : CfgOk k) (hn : 0 < n) {h h' : UHeap} {objs : List UObj} (r : Run k n h objs)
    {o : UObj} (ho : o ∈ objs) (hz : o.size ≤ k.maxAlloc) {e e' : Env} {x : Outcome Unit}
    (hd : h.dealloc k o.core o.ptr o.size e = (x, h')) {size align : Nat} (hs : size ≤ k.maxAlloc)
    (hc : k.cls size = k.cls o.size) (ha : o.ptr % align = 0) :
    ∃ p h'', h'.alloc k n o.core size align e' = (.ok (some p), h'') ∧ h''.maps = h.maps ∧ h''.pagers = h.pagers := by
  have inv := (run_inv hk hn r).perm (List.perm_cons_erase ho)
  have h0 := inv.nzo o List.mem_cons_self
  have hl := inv.live
  rw [slots_small hz] at hl
  unfold UHeap.dealloc at hd
  rw [if_pos hz, if_neg (by omega), if_pos (hl.mem_iff.2 List.mem_cons_self)] at hd
  cases hd
  unfold UHeap.alloc
  rw [if_pos hs]
  cases hx : UHeap.slot k { h with
        free := ⟨o.core, o.ptr, k.cls o.size⟩ :: h.free
        live := h.live.erase ⟨o.core, o.ptr, k.cls o.size⟩
        mem := Heap.scribble k h.pages e.noise h.mem } o.core size align e' with
  | none => exact absurd ha (slot_none.1 hx ⟨o.core, o.ptr, k.cls o.size⟩ List.mem_cons_self rfl hc.symm)
  | some p =>
    obtain ⟨a, g⟩ := p
    obtain ⟨s, _, _, _, _, _, rfl⟩ := slot_some hx
    exact ⟨a, _, rfl, rfl, rfl⟩

/-- The size of the page that a small object may need. -/
def pageFor (k : HCfg) (size : Nat) : Nat := if size ≤ k.maxBase then BASE else LARGE

/-- The kernel gives core `c` a page of this size. -/
def Gives (h : UHeap) (c : Nat) (ok : Nat → Nat → Bool) (size : Nat) : Prop :=
  roundUp (h.pagers c).sbrk size < (h.pagers c).limit ∧ ok (roundUp (h.pagers c).sbrk size) size = true ∧
    ∀ b ∈ h.maps, Disjoint b ⟨roundUp (h.pagers c).sbrk size, size⟩

theorem tryPage_gives {h : UHeap} {c size : Nat} {ok : Nat → Nat → Bool} (hn : 0 < n) (hs : PageSize size)
    (g : Gives h c ok size) :
    h.tryPage n c size ok n c = (.ok (some (roundUp (h.pagers c).sbrk size)), grown h c size (roundUp (h.pagers c).sbrk size)) := by
  obtain ⟨n, rfl⟩ : ∃ x, n = x + 1 := ⟨n - 1, by omega⟩
  unfold UHeap.tryPage
  rw [place_page hs rfl g]

theorem refill_slot {g : UHeap} {c a psize size align : Nat} {e : Env} (hk : CfgOk k) (hz : size ≤ k.maxAlloc)
    (hfit : k.cls size + k.overhead ≤ psize) (hal : a % align = 0) :
    ∃ q g', (g.refill k c a psize size e).slot k c size align e = some (q, g') := by
  cases hx : (g.refill k c a psize size e).slot k c size align e with
  | some p => exact ⟨p.1, p.2, rfl⟩
  | none =>
    exfalso
    have hp := (hk.le _ hz).2
    have hm : (⟨c, a, k.cls size⟩ : CSlot) ∈ (g.refill k c a psize size e).free := by
      refine List.mem_append_left _ (List.mem_map.2 ⟨⟨a, k.cls size⟩, ?_, rfl⟩)
      unfold slotsOf
      refine List.mem_map.2 ⟨0, List.mem_range.2 (Nat.div_pos ?_ hp), ?_⟩
      · show k.cls size ≤ psize - k.overhead
        omega
      · rw [hk.kb]; simp
    exact slot_none.1 hx _ hm rfl rfl hal

/-- **C77.** An allocation on a core whose pager still gets memory from the kernel succeeds: small objects with an
alignment of up to the size of the pages of their slab allocator, ... -/
theorem c77_served_small_partial (hk : CfgOk k) (hn : 0 < n) {h : UHeap} {c size align : Nat} {e : Env}
    (hz : size ≤ k.maxAlloc) (hal : pageFor k size % align = 0) (g : Gives h c e.ok (pageFor k size)) :
    ∃ p h', h.alloc k n c size align e = (.ok (some p), h') := by
  unfold UHeap.alloc
  rw [if_pos hz]
  cases hx : h.slot k c size align e with
  | some p => exact ⟨p.1, p.2, rfl⟩
  | none =>
    have ht := tryPage_gives hn (psize_ok k size) g
    unfold pageFor at ht hal
    simp only [ht]
    have hfit : k.cls size + k.overhead ≤ if size ≤ k.maxBase then BASE else LARGE := by
      split
      · rename_i hb; exact hk.fitB _ hb
      · exact hk.fitL _ hz
    obtain ⟨q, g', e1⟩ := refill_slot (g := grown h c (if size ≤ k.maxBase then BASE else LARGE)
        (roundUp (h.pagers c).sbrk (if size ≤ k.maxBase then BASE else LARGE))) (c := c) (e := e) hk hz hfit
      (mod_trans hal (roundUp_mod (h.pagers c).sbrk _))
    rw [e1]
    exact ⟨q, g', rfl⟩

/-- ... objects of up to a large page, ... -/
theorem c77_served_mid (hn : 0 < n) {h : UHeap} {c size align : Nat} {e : Env} (hz : k.maxAlloc < size)
    (hL : size ≤ LARGE) (g : Gives h c e.ok LARGE) :
    ∃ p h', h.alloc k n c size align e = (.ok (some p), h') := by
  unfold UHeap.alloc
  rw [if_neg (by omega), if_pos hL, tryPage_gives hn (.inr rfl) g]
  exact ⟨_, _, rfl⟩

/-- ... and bigger ones. -/
theorem c77_served_big (hn : 0 < n) (hk : CfgOk k) {h : UHeap} {c size align : Nat} {e : Env} (hL : LARGE < size)
    (hp : ∀ c, 0 < (h.pagers c).sbrk) (g : Room h c ((size + LARGE - 1) / LARGE) e.ok) :
    ∃ p h', h.alloc k n c size align e = (.ok (some p), h') := by
  unfold UHeap.alloc
  have := hk.large
  rw [if_neg (by omega), if_neg (by omega)]
  have hB : 0 < roundUp (h.pagers c).sbrk LARGE := by
    have := roundUp_ge (h.pagers c).sbrk LARGE LARGE_pos
    have := hp c
    omega
  obtain ⟨h', e1, _⟩ := bigPages_spec (first := none) hn rfl _ (roundUp_mod _ _) hB rfl g.place
  rw [e1, if_neg (big_pos LARGE_pos hL)]
  exact ⟨_, h', rfl⟩

/-- **C77.** No memory is handed out (a null pointer) only for small objects, when the core's own pager gets nothing
from the kernel. -/
theorem c77_null {h h' : UHeap} {c size align : Nat} {e : Env} (hn : 0 < n)
    (ha : h.alloc k n c size align e = (.ok none, h')) (hk : CfgOk k) (hp : ∀ c, 0 < (h.pagers c).sbrk) (hs : 0 < size)
    (fr : LARGE < size → Room h c ((size + LARGE - 1) / LARGE) e.ok) :
    size ≤ k.maxAlloc ∧ ¬ Gives h c e.ok (pageFor k size) ∧ c ≠ 0 := by
  have hmid : ¬ (k.maxAlloc < size) := by
    intro hz
    by_cases hL : size ≤ LARGE
    · unfold UHeap.alloc at ha
      rw [if_neg (by omega), if_pos hL] at ha
      split at ha
      · cases ha
      · rename_i hx
        exact hx _ ha
    · obtain ⟨p, g, e1⟩ := c77_served_big (align := align) hn hk (by omega) hp (fr (by omega))
      rw [e1] at ha
      cases ha
  have hz : size ≤ k.maxAlloc := by omega
  unfold UHeap.alloc at ha
  rw [if_pos hz] at ha
  split at ha
  · cases ha
  · simp only at ha
    split at ha
    · split at ha <;> cases ha
    · rename_i hx
      refine ⟨hz, ?_, ?_⟩
      · intro g
        have := tryPage_gives hn (psize_ok k size) g
        rw [this] at ha
        cases ha
      · rintro rfl
        obtain ⟨n, rfl⟩ : ∃ x, n = x + 1 := ⟨n - 1, by omega⟩
        unfold UHeap.tryPage at ha
        split at ha
        · cases ha
        · rw [if_pos rfl] at ha
          cases ha

end NRK.UHeap
