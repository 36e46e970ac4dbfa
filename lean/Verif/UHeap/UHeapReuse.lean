import Verif.UHeap.UHeapProps

/-!
# C77: memory that was freed stays available

`Spare h c size align`: an allocation of `size` bytes on core `c` is served whatever the kernel answers, without
asking it for memory.  `c77_reuse` says that this holds for the size class of an object that has just been freed.
-/

namespace NRK.UHeap

open NRK.Mem NRK.Mem.Spec NRK.Heap

variable {k : HCfg} {n : Nat}

/-- An allocation will be served without new memory. -/
def Spare (k : HCfg) (n : Nat) (h : UHeap) (c size align : Nat) : Prop :=
  ∀ e, ∃ p h', h.alloc k n c size align e = (.ok (some p), h') ∧ h'.maps = h.maps

/-- There is a free slot that fits. -/
def HasSlot (k : HCfg) (h : UHeap) (c size align : Nat) : Prop :=
  ∃ s ∈ h.free, s.core = c ∧ s.size = k.cls size ∧ s.addr % align = 0

theorem slot_free {h h' : UHeap} {c size align a : Nat} {e : Env} (hs : h.slot k c size align e = some (a, h')) :
    h'.maps = h.maps := by
  obtain ⟨s, _, _, _, _, _, rfl⟩ := slot_some hs
  rfl

theorem spare_iff {h : UHeap} (hp : ∀ c, 0 < (h.pagers c).sbrk) {c size align : Nat} (hz : size ≤ k.maxAlloc) :
    Spare k n h c size align ↔ HasSlot k h c size align := by
  constructor
  · intro hs
    obtain ⟨p, h', e1, e2⟩ := hs ⟨0, fun _ => 0, fun _ _ => true⟩
    refine Classical.byContradiction (fun hx => ?_)
    have hnone : h.slot k c size align ⟨0, fun _ => 0, fun _ _ => true⟩ = none :=
      slot_none.2 (fun s h1 h2 h3 h4 => hx ⟨s, h1, h2, h3, h4⟩)
    unfold UHeap.alloc at e1
    rw [if_pos hz, hnone] at e1
    simp only at e1
    split at e1
    · rename_i a g hg
      obtain ⟨r, h1⟩ := tryPage_spec (psize_ok k size) n hp hg
      rcases h1 with ⟨a', ea, f⟩ | ⟨h1, _⟩
      · split at e1
        · rename_i q g' hs'
          cases e1
          have := slot_free hs'
          rw [this] at e2
          have e3 : g.maps = h.maps := e2
          rw [f.maps] at e3
          have := congrArg List.length e3
          simp at this
        · cases e1
      · rcases h1 with h1 | ⟨h1, _⟩ <;> cases h1
    · rename_i hx'
      exact hx' p h' e1
  · rintro ⟨s, h1, h2, h3, h4⟩ e
    unfold UHeap.alloc
    rw [if_pos hz]
    cases hx : h.slot k c size align e with
    | none => exact absurd h4 (slot_none.1 hx s h1 h2 h3)
    | some p => exact ⟨p.1, p.2, rfl, slot_free (a := p.1) hx⟩

theorem HasSlot.rest {h h' : UHeap} {c size align : Nat} (hs : HasSlot k h c size align) (r : Rest h h') :
    HasSlot k h' c size align := by
  unfold HasSlot
  rw [r.free]
  exact hs

theorem HasSlot.slot {h h' : UHeap} {c size align c' size' align' a : Nat} {e : Env} (hs : HasSlot k h c size align)
    (hne : c' ≠ c ∨ k.cls size' ≠ k.cls size) (hx : h.slot k c' size' align' e = some (a, h')) :
    HasSlot k h' c size align := by
  obtain ⟨s, h1, h2, h3, h4⟩ := hs
  obtain ⟨t, t1, t2, t3, _, _, rfl⟩ := slot_some hx
  refine ⟨s, (List.mem_erase_of_ne ?_).2 h1, h2, h3, h4⟩
  rintro rfl
  rcases hne with hne | hne
  · exact hne (t2.symm.trans h2)
  · exact hne (t3.symm.trans h3)

theorem HasSlot.alloc {h h' : UHeap} (hp : ∀ c, 0 < (h.pagers c).sbrk) {c size align c' size' align' : Nat} {e : Env}
    (hs : HasSlot k h c size align) (hne : c' ≠ c ∨ k.cls size' ≠ k.cls size ∨ k.maxAlloc < size')
    {o : Outcome (Option Nat)} (ha : h.alloc k n c' size' align' e = (o, h')) : HasSlot k h' c size align := by
  unfold UHeap.alloc at ha
  split at ha
  · rename_i hz
    have hne' : c' ≠ c ∨ k.cls size' ≠ k.cls size := by
      rcases hne with h | h | h
      · exact .inl h
      · exact .inr h
      · omega
    split at ha
    · rename_i hx
      cases ha
      exact hs.slot hne' hx
    · simp only at ha
      split at ha
      · rename_i a g hg
        obtain ⟨r, _⟩ := tryPage_spec (psize_ok k size') n hp hg
        split at ha
        · rename_i q g' hx
          cases ha
          have hr : HasSlot k (g.refill k c' a (if size' ≤ k.maxBase then BASE else LARGE) size' e) c size align := by
            obtain ⟨s, h1, h2⟩ := hs.rest r
            exact ⟨s, List.mem_append_right _ h1, h2⟩
          exact hr.slot hne' hx
        · cases ha
          exact hs.rest r
      · exact hs.rest (tryPage_spec (psize_ok k size') n hp ha).1
  · split at ha
    · split at ha
      · rename_i hg
        cases ha
        exact hs.rest (tryPage_spec (.inr rfl) n hp hg).1
      · exact hs.rest (tryPage_spec (.inr rfl) n hp ha).1
    · exact hs.rest (bigPages_rest _ hp ha)

theorem HasSlot.dealloc {h h' : UHeap} {c size align c' ptr size' : Nat} {e : Env} (hs : HasSlot k h c size align)
    {o : Outcome Unit} (hd : h.dealloc k c' ptr size' e = (o, h')) : HasSlot k h' c size align := by
  unfold UHeap.dealloc at hd
  split at hd
  · split at hd
    · cases hd; exact hs
    · split at hd
      · cases hd
        obtain ⟨s, h1, h2⟩ := hs
        exact ⟨s, List.mem_cons_of_mem _ h1, h2⟩
      · cases hd; exact hs
  · cases hd; exact hs

/-- **C77.** Memory that is spare for a size class of a core stays so whatever is allocated on other cores or in
other classes, ... -/
theorem c77_spare_alloc (hk : CfgOk k) (hn : 0 < n) {h h' : UHeap} {objs : List UObj} (r : Run k n h objs)
    {c size align c' size' align' : Nat} {e : Env} (hz : size ≤ k.maxAlloc) (hs : Spare k n h c size align)
    (hne : c' ≠ c ∨ k.cls size' ≠ k.cls size ∨ k.maxAlloc < size') (fr : Fair h c' size' align' e)
    {o : Option Nat} (ha : h.alloc k n c' size' align' e = (.ok o, h')) : Spare k n h' c size align := by
  have inv := run_inv hk hn r
  have hp' : ∀ c, 0 < (h'.pagers c).sbrk := by
    rcases (inv.alloc hk hn fr ha (by simp)).2 with ⟨_, _, i⟩ | ⟨_, i⟩ <;> exact i.pos
  exact (spare_iff hp' hz).2 (((spare_iff inv.pos hz).1 hs).alloc inv.pos hne ha)

/-- ... and whatever is freed. -/
theorem c77_spare_free (hk : CfgOk k) (hn : 0 < n) {h : UHeap} {objs : List UObj} (r : Run k n h objs)
    {c size align : Nat} {e : Env} {o : UObj} (ho : o ∈ objs) (hz : size ≤ k.maxAlloc) (hs : Spare k n h c size align) :
    Spare k n (h.dealloc k o.core o.ptr o.size e).2 c size align := by
  have inv := run_inv hk hn r
  have i2 := ((inv.perm (List.perm_cons_erase ho)).dealloc hk (e := e)
    (show h.dealloc k o.core o.ptr o.size e = (_, _) from rfl)).2.2
  exact (spare_iff i2.pos hz).2 (((spare_iff inv.pos hz).1 hs).dealloc (show h.dealloc k o.core o.ptr o.size e = (_, _) from rfl))

end NRK.UHeap
