import Verif.UHeap.UHeapReuse

/-! # C77: the constants in use meet the conditions, a history, and what goes wrong -/

namespace NRK.UHeap

open NRK.Mem NRK.Mem.Spec NRK.Heap

/-- The constants in use. -/
def ureal : HCfg := ⟨0, 1024, 131072, 80, classOf⟩

theorem ureal_ok : CfgOk ureal := by
  have hB : BASE = 4096 := BASE_eq
  have hL : LARGE = 2097152 := LARGE_eq
  have hc : ∀ c ∈ classes, 0 < c ∧ c ≤ 131072 := by decide
  have hm : ∀ s ≤ 131072, s ≤ classOf s ∧ 0 < classOf s ∧ classOf s ≤ 131072 := by
    intro s hs
    obtain ⟨a, b⟩ := classOf_mem (m := 131072) (by decide) hs
    exact ⟨a, hc _ b⟩
  refine ⟨rfl, fun s hs => ⟨(hm s hs).1, (hm s hs).2.1⟩, fun s hs => (hm s hs).2.2, ?_, ?_, ?_, ?_⟩
  · rw [hL]; decide
  · rw [hB]; decide
  · intro s (hs : s ≤ 1024)
    show classOf s + 80 ≤ BASE
    have := classOf_small s hs
    omega
  · intro s (hs : s ≤ 131072)
    show classOf s + 80 ≤ LARGE
    have := (hm s hs).2.2
    omega

/-- A gigabyte of addresses for every core. -/
def wpagers : Nat → Pager := fun c => ⟨0x40000000 + c * 0x40000000, 0x80000000 + c * 0x40000000⟩

def uenv : Env := ⟨0, fun _ => 7, fun _ _ => true⟩
/-- The kernel has no memory left. -/
def uoom : Env := ⟨0, fun _ => 7, fun _ _ => false⟩

def u0 : UHeap := ⟨[], [], [], wpagers, [⟨0x1000, 0x1000⟩], fun _ => 0, []⟩
/-- Core 1 allocates 100 bytes. -/
def u1 : UHeap := (u0.alloc ureal 4 1 100 8 uenv).2
/-- Core 2 allocates a large page. -/
def u2 : UHeap := (u1.alloc ureal 4 2 200000 4096 uenv).2
/-- Core 1 allocates three large pages. -/
def u3 : UHeap := (u2.alloc ureal 4 1 5000000 8 uenv).2
/-- The owner of the first object writes to it. -/
def u4 : UHeap := { u3 with mem := fun a => if a = 0x80000003 then 42 else u3.mem a }
/-- It grows. -/
def u5 : UHeap := (u4.realloc ureal 4 1 0x80000000 100 8 1000 uenv).2
/-- Core 3 maps 65 MiB. -/
def u6 : UHeap := (u5.mmap 3 0 68157440 uenv.ok).2

def uo1 : UObj := ⟨1, 0x80000000, 100, 8⟩
def uo2 : UObj := ⟨2, 0xc0000000, 200000, 4096⟩
def uo3 : UObj := ⟨1, 0x80200000, 5000000, 8⟩
def uo4 : UObj := ⟨1, 0x80800000, 1000, 8⟩

theorem urun0 : Run ureal 4 u0 [] := Run.start (fun c => by show 0 < 0x40000000 + c * 0x40000000; omega)

unseal BASE LARGE in
theorem urun1 : Run ureal 4 u1 [uo1] :=
  Run.alloc urun0 (c := 1) (size := 100) (align := 8) (e := uenv)
    ⟨by decide, by decide, fun h => absurd h (by decide)⟩ (pair_eta (by decide +kernel))

unseal BASE LARGE in
theorem urun2 : Run ureal 4 u2 [uo2, uo1] :=
  Run.alloc urun1 (c := 2) (size := 200000) (align := 4096) (e := uenv)
    ⟨by decide, by decide, fun h => absurd h (by decide)⟩ (pair_eta (by decide +kernel))

/-- Room for three large pages. -/
theorem u2_room : Room u2 1 3 uenv.ok := by
  have hs : (u2.pagers 1).sbrk = 0x80001000 ∧ (u2.pagers 1).limit = 0xc0000000 := by decide +kernel
  have hm : u2.maps = [⟨0xc0000000, LARGE⟩, ⟨0x80000000, BASE⟩, ⟨0x1000, 0x1000⟩] := by decide +kernel
  have hr : roundUp 0x80001000 LARGE = 0x80200000 := by rw [LARGE_eq]; decide
  intro j hj
  rw [hs.1, hs.2, hm, hr]
  have hL : LARGE = 2097152 := LARGE_eq
  have hB : BASE = 4096 := BASE_eq
  rw [hL, hB]
  refine ⟨by omega, rfl, ?_⟩
  intro b hb
  simp only [List.mem_cons, List.not_mem_nil, or_false] at hb
  rcases hb with rfl | rfl | rfl
  all_goals
    intro x hx
    obtain ⟨⟨h1, h2⟩, ⟨h3, h4⟩⟩ := hx
    simp only at h1 h2 h3 h4
    omega

unseal BASE LARGE in
theorem urun3 : Run ureal 4 u3 [uo3, uo2, uo1] :=
  Run.alloc urun2 (c := 1) (size := 5000000) (align := 8) (e := uenv)
    ⟨by decide, by decide, fun _ => u2_room⟩ (pair_eta (by decide +kernel))

theorem urun4 : Run ureal 4 u4 [uo3, uo2, uo1] := by
  refine Run.write urun3 (b := uo1.block) (owned_obj (by decide)) (fun a ha => ?_)
  show (if a = 0x80000003 then 42 else u3.mem a) = u3.mem a
  rw [if_neg]
  rintro rfl
  exact ha ⟨by decide, by decide⟩

unseal BASE LARGE in
theorem urun5 : Run ureal 4 u5 [uo4, uo3, uo2] := by
  have := Run.realloc urun4 (o := uo1) (new := 1000) (e := uenv) (q := 0x80800000) (h' := u5) (by decide)
    ⟨by decide, by decide, fun h => absurd h (by decide)⟩ (fun h => absurd h (by unfold keeps; decide))
    (pair_eta (by decide +kernel))
  exact this

/-- `mmap` takes two chunks. -/
theorem urun6 : Run ureal 4 u6 [uo4, uo3, uo2] :=
  Run.mmap urun5 (c := 3) (addr := 0) (len := 68157440) (ok := uenv.ok) (p := 0x100000000)
    (pair_eta (by decide +kernel))

example : u6.maps.length = u5.maps.length + 2 ∧ u6.mm = [⟨0x100000000, 68157440⟩] := by decide +kernel

/-- The contents moved along. -/
example : u5.mem 0x80800003 = 42 := by decide +kernel

/-- The object that the first one was before it grew is free again, and its memory is used for the next object of
its size class. -/
example : (u5.alloc ureal 4 1 120 8 uenv).1 = .ok (some 0x80000000) := by decide +kernel

/-- It is spare, also while core 1 allocates in other classes (`c77_spare_alloc`). -/
example : Spare ureal 4 u5 1 120 8 :=
  (spare_iff (run_inv ureal_ok (by decide) urun5).pos (by decide)).2 ⟨⟨1, 0x80000000, 128⟩, by decide +kernel, rfl, rfl, by decide⟩

/-- `c77_served_small_partial`, `c77_served_mid`: the kernel gives pages to core 3 ... -/
example : ∃ p h', u5.alloc ureal 4 3 100 8 uenv = (.ok (some p), h') := ⟨0x100000000, _, pair_eta (by decide +kernel)⟩
example : ∃ p h', u5.alloc ureal 4 3 200000 8 uenv = (.ok (some p), h') := ⟨0x100000000, _, pair_eta (by decide +kernel)⟩
/-- ... and with no memory in the kernel core 3 gets a null pointer. -/
example : (u5.alloc ureal 4 3 100 8 uoom).1 = .ok none := by decide +kernel

/-! ## What goes wrong -/

/-- Core 0 panics when the kernel is out of memory, where every other core gets a null pointer. -/
theorem c77_core0_panics :
    ∃ h objs, Run ureal 4 h objs ∧ (h.alloc ureal 4 0 100 8 uoom).1 = .panic ∧ (h.alloc ureal 4 3 100 8 uoom).1 = .ok none :=
  ⟨u5, _, urun5, by decide +kernel, by decide +kernel⟩

/-- An object of more than 128 KiB: any core panics. -/
theorem c77_mid_panics :
    ∃ h objs, Run ureal 4 h objs ∧ (h.alloc ureal 4 3 200000 8 uoom).1 = .panic :=
  ⟨u5, _, urun5, by decide +kernel⟩

/-- The kernel has memory only for the addresses of core 1. -/
def uonly1 : Env := ⟨0, fun _ => 7, fun a _ => decide (0x80000000 ≤ a) && decide (a < 0xc0000000)⟩

/-- Core 2 tries the other cores' parts of the address space, but never that of the core before it. -/
theorem c77_neighbour_not_tried :
    ∃ h objs, Run ureal 4 h objs ∧ (h.alloc ureal 4 2 100 8 uonly1).1 = .ok none ∧
      (h.alloc ureal 4 3 100 8 uonly1).1 ≠ .ok none :=
  ⟨u3, _, urun3, by decide +kernel, by decide +kernel⟩

/-- A small object with an alignment above that of the pages: panics although the kernel has memory. -/
theorem c77_align_panics :
    ∃ h objs, Run ureal 4 h objs ∧ Fair h 1 100 8192 uenv ∧ (h.alloc ureal 4 1 100 8192 uenv).1 = .panic := by
  have hL : LARGE = 2097152 := LARGE_eq
  refine ⟨u1, _, urun1, ⟨by decide, ⟨by decide, by rw [hL]⟩, fun h => ?_⟩, by decide +kernel⟩
  rw [hL] at h
  omega

/-- An object freed on a core other than its own: the slab allocator that gets it has not handed it out. -/
theorem c77_other_core_free :
    ∃ h objs, Run ureal 4 h objs ∧ uo1 ∈ objs ∧ (h.dealloc ureal 2 uo1.ptr uo1.size uenv).1 = .panic :=
  ⟨u3, _, urun3, by decide, by decide +kernel⟩

/-- An object that was made smaller in place, and is then freed with its new size, as `GlobalAlloc` demands: it is
looked for in another size class. -/
theorem c77_shrink_free :
    ∃ h objs, Run ureal 4 h objs ∧ uo4 ∈ objs ∧
      (h.realloc ureal 4 uo4.core uo4.ptr uo4.size uo4.align 100 uenv).1 = .ok (some uo4.ptr) ∧
      ((h.realloc ureal 4 uo4.core uo4.ptr uo4.size uo4.align 100 uenv).2.dealloc ureal uo4.core uo4.ptr 100 uenv).1 = .panic :=
  ⟨u5, _, urun5, by decide, by decide +kernel, by decide +kernel⟩

/-- The kernel has memory for all addresses but for the second large page of core 1. -/
def uhole : Env := ⟨0, fun _ => 7, fun a _ => decide (a ≠ 0x80400000)⟩

/-- The pages of a big object need not be next to each other: here the object of 5000000 bytes starts at the page
that core 1 got, and the pages after that are elsewhere. -/
theorem c77_big_scattered :
    ∃ h objs p, Run ureal 4 h objs ∧ (h.alloc ureal 4 1 5000000 8 uhole).1 = .ok (some p) ∧
      ¬ Mapped (h.alloc ureal 4 1 5000000 8 uhole).2 (p + LARGE) := by
  have hL : LARGE = 2097152 := LARGE_eq
  have hB : BASE = 4096 := BASE_eq
  refine ⟨u1, _, 0x80200000, urun1, by decide +kernel, ?_⟩
  have hm : (u1.alloc ureal 4 1 5000000 8 uhole).2.maps =
      [⟨0xc0200000, LARGE⟩, ⟨0xc0000000, LARGE⟩, ⟨0x80200000, LARGE⟩, ⟨0x80000000, BASE⟩, ⟨0x1000, 0x1000⟩] := by
    decide +kernel
  rintro ⟨b, hb, h1, h2⟩
  rw [hm] at hb
  rw [hL] at h1 h2 hb
  rw [hB] at hb
  simp only [List.mem_cons, List.not_mem_nil, or_false] at hb
  rcases hb with rfl | rfl | rfl | rfl | rfl
  all_goals
    simp only at h1 h2
    omega

/-- The memory of objects of more than 128 KiB is never used again: freeing them does nothing. -/
theorem c77_mid_leak {k : HCfg} {h : UHeap} {c ptr size : Nat} {e : Env} (hz : k.maxAlloc < size) :
    h.dealloc k c ptr size e = (.ok (), h) := by
  unfold UHeap.dealloc
  rw [if_neg (by omega)]

end NRK.UHeap
