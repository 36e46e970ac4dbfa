import Verif.UHeap.UHeapProps

/-!
# C77: natural alignment

An object whose size class is a multiple of `m` is aligned to `m`, whatever alignment was asked for.  (This is what
makes `malloc` return pointers that are aligned to 16 bytes.)
-/

namespace NRK.UHeap

open NRK.Mem NRK.Mem.Spec NRK.Heap

variable {k : HCfg} {n m : Nat}

/-- Slots are aligned to `m` if their size is a multiple of it. -/
structure Al (m : Nat) (h : UHeap) : Prop where
  f : ∀ s ∈ h.free, s.size % m = 0 → s.addr % m = 0
  l : ∀ s ∈ h.live, s.size % m = 0 → s.addr % m = 0

theorem Al.rest {h g : UHeap} (a : Al m h) (r : Rest h g) : Al m g :=
  ⟨by rw [r.free]; exact a.f, by rw [r.live]; exact a.l⟩

theorem Al.slot {h h' : UHeap} (al : Al m h) {c size align a : Nat} {e : Env}
    (hs : h.slot k c size align e = some (a, h')) : Al m h' := by
  obtain ⟨s, h1, _, _, _, _, rfl⟩ := slot_some hs
  refine ⟨fun t ht => al.f t (List.mem_of_mem_erase ht), fun t ht => ?_⟩
  rcases List.mem_cons.1 ht with rfl | ht
  · exact al.f _ h1
  · exact al.l t ht

theorem Al.refill {g : UHeap} (al : Al m g) {c a psize size : Nat} {e : Env} (hkb : k.kb = 0) (ha : a % m = 0) :
    Al m (g.refill k c a psize size e) := by
  refine ⟨fun t ht => ?_, al.l⟩
  rcases List.mem_append.1 ht with ht | ht
  · obtain ⟨s, hs, rfl⟩ := List.mem_map.1 ht
    unfold slotsOf at hs
    obtain ⟨i, _, rfl⟩ := List.mem_map.1 hs
    intro hz
    show (k.kb + a + i * k.cls size) % m = 0
    rw [hkb, Nat.zero_add, Nat.add_mod, ha, Nat.mul_mod, show k.cls size % m = 0 from hz]
    simp
  · exact al.f t ht

theorem big_result {L : Nat} (eL : L = LARGE) (hn : 0 < n) {h h' : UHeap} (hp : ∀ c, 0 < (h.pagers c).sbrk)
    {c size p : Nat} {ok : Nat → Nat → Bool} (hz : L < size)
    (room : ∀ j < (size + L - 1) / L, Place h c ok L (roundUp (h.pagers c).sbrk L + j * L))
    (ha : h.bigPages n c ok ((size + L - 1) / L) none = (.ok (some p), h')) : p % L = 0 := by
  have hLp : 0 < L := by rw [eL]; exact LARGE_pos
  have hBm : roundUp (h.pagers c).sbrk L % L = 0 := roundUp_mod _ _
  have hBp : 0 < roundUp (h.pagers c).sbrk L := by
    have := roundUp_ge (h.pagers c).sbrk L hLp
    have := hp c
    omega
  generalize eB : roundUp (h.pagers c).sbrk L = B at *
  obtain ⟨g, e1, _⟩ := bigPages_spec (first := none) hn eL _ hBm hBp eB room
  rw [e1, if_neg (big_pos hLp hz)] at ha
  cases ha
  exact hBm

theorem Al.alloc {h h' : UHeap} (hk : CfgOk k) (hn : 0 < n) (hB : BASE % m = 0) (hL : LARGE % m = 0) (al : Al m h)
    (hp : ∀ c, 0 < (h.pagers c).sbrk) {c size align : Nat} {e : Env} (fr : Fair h c size align e)
    {o : Outcome (Option Nat)} (ha : h.alloc k n c size align e = (o, h')) :
    Al m h' ∧ ∀ p, o = .ok (some p) → k.maxAlloc < size → p % LARGE = 0 := by
  unfold UHeap.alloc at ha
  split at ha
  · rename_i hz
    refine ⟨?_, fun _ _ h => by omega⟩
    split at ha
    · rename_i hs
      cases ha
      exact al.slot hs
    · simp only at ha
      split at ha
      · rename_i a g hg
        obtain ⟨r, h1⟩ := tryPage_spec (psize_ok k size) n hp hg
        have hm : a % m = 0 := by
          rcases h1 with ⟨a', ea, f⟩ | ⟨h1, _⟩
          · cases ea
            refine mod_trans ?_ f.align
            split
            · exact hB
            · exact hL
          · rcases h1 with h1 | ⟨h1, _⟩ <;> cases h1
        split at ha
        · rename_i hs
          cases ha
          exact ((al.rest r).refill hk.kb hm).slot hs
        · cases ha; exact al.rest r
      · exact al.rest (tryPage_spec (psize_ok k size) n hp ha).1
  · rename_i hz
    split at ha
    · split at ha
      · rename_i hg
        cases ha
        exact ⟨al.rest (tryPage_spec (.inr rfl) n hp hg).1, fun _ h => by cases h⟩
      · obtain ⟨r, h1⟩ := tryPage_spec (.inr rfl) n hp ha
        refine ⟨al.rest r, fun p ep _ => ?_⟩
        rcases h1 with ⟨a, ea, f⟩ | ⟨h1, _⟩
        · rw [ep] at ea; cases ea; exact f.align
        · rw [ep] at h1; rcases h1 with h1 | ⟨h1, _⟩ <;> cases h1
    · rename_i hL2
      refine ⟨al.rest (bigPages_rest _ hp ha), fun p ep _ => ?_⟩
      rw [ep] at ha
      exact big_result rfl hn hp (by omega) (fr.room (by omega)).place ha

theorem Al.dealloc {h h' : UHeap} (al : Al m h) {c ptr size : Nat} {e : Env} {o : Outcome Unit}
    (hd : h.dealloc k c ptr size e = (o, h')) : Al m h' := by
  unfold UHeap.dealloc at hd
  split at hd
  · split at hd
    · cases hd; exact al
    · split at hd
      · rename_i hl
        cases hd
        refine ⟨fun t ht => ?_, fun t ht => al.l t (List.mem_of_mem_erase ht)⟩
        rcases List.mem_cons.1 ht with rfl | ht
        · exact al.l _ hl
        · exact al.f t ht
      · cases hd; exact al
  · cases hd; exact al

theorem run_al (hk : CfgOk k) (hn : 0 < n) (hB : BASE % m = 0) (hL : LARGE % m = 0) {h : UHeap} {objs : List UObj}
    (r : Run k n h objs) : Al m h ∧ ∀ o ∈ objs, k.maxAlloc < o.size → o.ptr % LARGE = 0 := by
  induction r with
  | start hp => exact ⟨⟨fun _ h => absurd h (by simp), fun _ h => absurd h (by simp)⟩, fun _ h => absurd h (by simp)⟩
  | alloc r0 fr ha ih =>
    obtain ⟨a, b⟩ := ih.1.alloc hk hn hB hL (run_inv hk hn r0).pos fr ha
    refine ⟨a, fun o ho => ?_⟩
    rcases List.mem_cons.1 ho with rfl | ho
    · exact b _ rfl
    · exact ih.2 o ho
  | allocNull r0 fr ha ih => exact ⟨(ih.1.alloc hk hn hB hL (run_inv hk hn r0).pos fr ha).1, ih.2⟩
  | dealloc _ _ hd ih => exact ⟨ih.1.dealloc hd, fun o ho => ih.2 o (List.mem_of_mem_erase ho)⟩
  | @realloc h objs h' q new o e r0 ho fr hc hr ih =>
    unfold UHeap.realloc at hr
    split at hr
    · rename_i hkp
      cases hr
      refine ⟨ih.1, fun x hx => ?_⟩
      rcases List.mem_cons.1 hx with rfl | hx
      · intro hz
        have h1 := hk.top _ hkp.1
        have h2 := hkp.2
        have h3 : k.maxAlloc < new := hz
        omega
      · exact ih.2 x (List.mem_of_mem_erase hx)
    · split at hr
      · rename_i p g hg
        obtain ⟨a, b⟩ := ih.1.alloc hk hn hB hL (run_inv hk hn r0).pos fr hg
        split at hr
        · rename_i g' hd
          cases hr
          refine ⟨Al.dealloc (h := { g with mem := copy g.mem o.ptr q (min o.size new) }) ⟨a.f, a.l⟩ hd, fun x hx => ?_⟩
          rcases List.mem_cons.1 hx with rfl | hx
          · exact b _ rfl
          · exact ih.2 x (List.mem_of_mem_erase hx)
        · cases hr
      · rename_i hx
        exact absurd hr (hx _ _)
  | @reallocNull h objs h' new o e r0 ho fr hr ih =>
    unfold UHeap.realloc at hr
    split at hr
    · cases hr
    · split at hr
      · split at hr <;> cases hr
      · exact ⟨(ih.1.alloc hk hn hB hL (run_inv hk hn r0).pos fr hr).1, ih.2⟩
  | @relax h objs o al _ ho ha ih =>
    refine ⟨ih.1, fun x hx => ?_⟩
    rcases List.mem_cons.1 hx with rfl | hx
    · exact ih.2 o ho
    · exact ih.2 x (List.mem_of_mem_erase hx)
  | mmap r0 e ih =>
    obtain ⟨_, _, _, g, r, _, rfl, _⟩ := mmap_spec rfl (run_inv hk hn r0).pos e
    exact ⟨⟨(ih.1.rest r).f, (ih.1.rest r).l⟩, ih.2⟩
  | write _ _ _ ih => exact ⟨⟨ih.1.f, ih.1.l⟩, ih.2⟩

/-- **C77.** An object is aligned to every divisor of the page size that its size class is a multiple of; one that is
not in a size class is aligned to a large page. -/
theorem c77_natural (hk : CfgOk k) (hn : 0 < n) (hB : BASE % m = 0) (hL : LARGE % m = 0) {h : UHeap} {objs : List UObj}
    (r : Run k n h objs) {o : UObj} (ho : o ∈ objs) (hc : o.size ≤ k.maxAlloc → k.cls o.size % m = 0) :
    o.ptr % m = 0 := by
  obtain ⟨al, big⟩ := run_al hk hn hB hL r
  by_cases hz : o.size ≤ k.maxAlloc
  · have hl : (⟨o.core, o.ptr, k.cls o.size⟩ : CSlot) ∈ slots k objs :=
      List.mem_map.2 ⟨o, List.mem_filter.2 ⟨ho, by simpa using hz⟩, rfl⟩
    exact al.l _ ((run_inv hk hn r).live.mem_iff.2 hl) (hc hz)
  · exact mod_trans hL (big o ho (by omega))

end NRK.UHeap
