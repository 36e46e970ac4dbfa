import Verif.UHeap.CMemLemmas
import Verif.UHeap.UHeapAlign
import Verif.UHeap.UHeapReuse

/-! # C78: `malloc`, `calloc`, `free`, `realloc`, `posix_memalign` and `mmap` of C programs -/

namespace NRK.UHeap

open NRK.Mem NRK.Mem.Spec NRK.Heap

variable {k : HCfg} {n : Nat}

/-- The bytes of the program are within what the heap keeps. -/
theorem Same.c {m m' : Nat → UInt8} {h : UHeap} {objs : List CObj} (s : Same m m' (owned h (objs.map CObj.under))) :
    Same m m' (cowned h objs) := by
  intro b hb a ha
  rcases List.mem_append.1 hb with hb | hb
  · exact s b (List.mem_append_left _ hb) a ha
  · obtain ⟨o, ho, rfl⟩ := List.mem_map.1 hb
    exact s o.under.block (owned_obj (under_mem ho)) a (cblock_inside o a ha)

/-- **C78.** No two objects of a C program share a byte, nor does one with memory from `mmap`. -/
theorem c78_disjoint (hk : CfgOk k) (hn : 0 < n) {h : UHeap} {objs : List CObj} (r : CRun k n h objs) :
    AllDisjoint (h.mm ++ objs.map CObj.block) := by
  have hd := (run_inv hk hn (crun_inv hk hn r).run).apart hk
  obtain ⟨h1, h2, h3⟩ := List.pairwise_append.1 hd
  refine List.pairwise_append.2 ⟨h1, ?_, ?_⟩
  · rw [List.map_map, List.pairwise_map] at h2
    rw [List.pairwise_map]
    exact h2.imp (fun h => h.mono (cblock_inside _) (cblock_inside _))
  · intro b hb b' hb'
    obtain ⟨o, ho, rfl⟩ := List.mem_map.1 hb'
    exact (h3 b hb o.under.block (List.mem_map_of_mem (under_mem ho))).mono (fun _ h => h) (cblock_inside o)

/-- **C78.** Every byte of an object is mapped. -/
theorem c78_mapped (hk : CfgOk k) (hn : 0 < n) {h : UHeap} {objs : List CObj} (r : CRun k n h objs) {b : Block}
    (hb : b ∈ h.mm ++ objs.map CObj.block) {a : Nat} (ha : b.Has a) : Mapped h a := by
  have inv := crun_inv hk hn r
  rcases List.mem_append.1 hb with hb | hb
  · exact c77_mapped hk hn inv.run (List.mem_append_left _ hb) ha
  · obtain ⟨o, ho, rfl⟩ := List.mem_map.1 hb
    exact c77_mapped hk hn inv.run (b := o.under.block) (List.mem_append_right _ (List.mem_map_of_mem (under_mem ho)))
      (cblock_inside o a ha)

/-- **C78.** Objects are aligned to 16 bytes, as the classes of 16 bytes and more are multiples of 16. -/
theorem c78_aligned (hk : CfgOk k) (hn : 0 < n) (h16 : ∀ s, 16 ≤ s → s ≤ k.maxAlloc → k.cls s % 16 = 0) {h : UHeap}
    {objs : List CObj} (r : CRun k n h objs) {o : CObj} (ho : o ∈ objs) : o.ptr % 16 = 0 ∧ o.ptr ≠ 0 := by
  have := c77_natural (m := 16) hk hn (by rw [BASE_eq]) (by rw [LARGE_eq]) (crun_inv hk hn r).run (under_mem ho)
    (fun hz => h16 _ (by show 16 ≤ o.size + HDR; rw [HDR_eq]; omega) hz)
  have h1 : o.base % 16 = 0 := this
  unfold CObj.ptr
  rw [HDR_eq]
  omega

/-- **C78.** `malloc` changes no byte of another object. -/
theorem c78_malloc_keeps (hk : CfgOk k) (hn : 0 < n) {h h' : UHeap} {objs : List CObj} (r : CRun k n h objs)
    {c size : Nat} {e : Env} (fr : Fair h c (size + HDR) 8 e) {q : Option Nat}
    (hm : h.malloc k n c size e = (.ok q, h')) : Same h.mem h'.mem (cowned h objs) :=
  ((crun_inv hk hn r).malloc hk hn fr hm).1.c

/-- **C78.** Nor does `posix_memalign`. -/
theorem c78_memalign_keeps (hk : CfgOk k) (hn : 0 < n) {h h' : UHeap} {objs : List CObj} (r : CRun k n h objs)
    {c align size : Nat} {e : Env} (fr : Fair h c (size + HDR) (max align 8) e) (h8 : max align 8 % 8 = 0)
    {q : Option Nat} (hm : h.memalign k n c align size e = (.ok q, h')) : Same h.mem h'.mem (cowned h objs) :=
  ((crun_inv hk hn r).memalign hk hn fr (fun _ => h8) hm).1.c

/-- **C78.** `calloc` returns `nmem * size` bytes that are 0, and changes no byte of another object. -/
theorem c78_calloc (hk : CfgOk k) (hn : 0 < n) {h h' : UHeap} {objs : List CObj} (r : CRun k n h objs)
    {c nmem size : Nat} {e : Env} (fr : Fair h c (nmem * size + HDR) 8 e) {q : Option Nat}
    (hm : h.calloc k n c nmem size e = (.ok q, h')) :
    Same h.mem h'.mem (cowned h objs) ∧ ∀ p, q = some p → ∀ i < nmem * size, h'.mem (p + i) = 0 := by
  obtain ⟨s, _, h1⟩ := (crun_inv hk hn r).calloc hk hn fr hm
  refine ⟨s.c, fun p ep i hi => ?_⟩
  rcases h1 with ⟨e1, _⟩ | ⟨p', e1, _, h2⟩
  · rw [ep] at e1; cases e1
  · rw [ep] at e1; cases e1; exact h2 i hi

/-- **C78.** `free` of an object works on its core, whatever the program wrote to its objects, and changes no byte of
another. -/
theorem c78_free (hk : CfgOk k) (hn : 0 < n) {h : UHeap} {objs : List CObj} (r : CRun k n h objs) {o : CObj}
    (ho : o ∈ objs) {e : Env} :
    (h.cfree k o.core o.ptr e).1 = .ok () ∧ Same h.mem (h.cfree k o.core o.ptr e).2.mem (cowned h (objs.erase o)) := by
  cases hf : h.cfree k o.core o.ptr e with
  | mk x h' =>
    obtain ⟨h1, s, _⟩ := (crun_inv hk hn r).free hk hn ho hf
    exact ⟨h1, s.c⟩

/-- **C78.** `free(NULL)` does nothing. -/
theorem c78_free_null {h : UHeap} {c : Nat} {e : Env} : h.cfree k c 0 e = (.ok (), h) := by
  unfold UHeap.cfree
  rw [if_pos rfl]

/-- **C78.** `realloc` keeps the contents, up to the smaller of the two sizes, and changes no byte of another object. -/
theorem c78_realloc_keeps_partial (hk : CfgOk k) (hn : 0 < n) {h h' : UHeap} {objs : List CObj} (r : CRun k n h objs)
    {o : CObj} (ho : o ∈ objs) {new q : Nat} {e : Env} (fr : Fair h o.core (new + HDR) 8 e)
    (hc : keeps k (o.size + HDR) (new + HDR) → k.cls (new + HDR) = k.cls (o.size + HDR))
    (hr : h.crealloc k n o.core o.ptr new e = (.ok q, h')) :
    (∀ i < min o.size new, h'.mem (q + i) = h.mem (o.ptr + i)) ∧ Same h.mem h'.mem (cowned h (objs.erase o)) := by
  obtain ⟨s, _, p, rfl, _, h1⟩ := (crun_inv hk hn r).realloc hk hn ho fr hc hr
  exact ⟨h1, s.c⟩

/-- **C78.** `realloc(NULL, n)` is `malloc(n)`, if that does not fail. -/
theorem c78_realloc_null {h h' : UHeap} {c new p : Nat} {e : Env} (hz : 0 ≤ k.maxAlloc) (h0 : k.cls 0 < HDR)
    (hm : h.malloc k n c new e = (.ok (some p), h')) : ∃ h'', h.crealloc k n c 0 new e = (.ok p, h'') ∧
      (∀ a, h''.mem a = h'.mem a) ∧ h''.free = h'.free ∧ h''.live = h'.live ∧ h''.maps = h'.maps := by
  unfold UHeap.malloc at hm
  unfold UHeap.crealloc
  split at hm
  · cases hm
  · rename_i hw
    rw [if_neg hw]
    have hkp : ¬ keeps k 0 (new + HDR) := by
      intro h; have := h.2; omega
    simp only [if_true]
    unfold UHeap.realloc
    rw [if_neg hkp]
    split at hm
    · rename_i q g hg
      cases hm
      rw [hg]
      simp only [Nat.zero_min]
      have hd : UHeap.dealloc k { g with mem := copy g.mem 0 q 0 } c 0 0 e = (.ok (), { g with mem := copy g.mem 0 q 0 }) := by
        unfold UHeap.dealloc
        rw [if_pos hz, if_pos rfl]
      rw [hd]
      refine ⟨_, rfl, fun a => ?_, rfl, rfl, rfl⟩
      show put64 (copy g.mem 0 q 0) q _ a = put64 g.mem q _ a
      have : copy g.mem 0 q 0 = g.mem := by
        funext x
        unfold copy
        rw [if_neg (by omega)]
      rw [this]
    · rename_i hx
      exact absurd hm (hx p h')

/-- **C78.** `posix_memalign` with an alignment of up to 16 bytes returns memory with it ... -/
theorem c78_memalign_partial (hk : CfgOk k) (hn : 0 < n) {h h' : UHeap} {objs : List CObj} (r : CRun k n h objs)
    {c align size p : Nat} {e : Env} (fr : Fair h c (size + HDR) (max align 8) e) (ha : align = 8 ∨ align = 16)
    (hm : h.memalign k n c align size e = (.ok (some p), h')) : p % align = 0 := by
  have h8 : max align 8 % 8 = 0 := by rcases ha with rfl | rfl <;> rfl
  rcases ((crun_inv hk hn r).memalign hk hn fr (fun _ => h8) hm).2.2 with ⟨e1, _⟩ | ⟨q, e1, _, h1⟩
  · cases e1
  · cases e1
    rw [HDR_eq]
    rcases ha with rfl | rfl
    · rw [show max 8 8 = 8 from rfl] at h1
      omega
    · rw [show max 16 8 = 16 from rfl] at h1
      omega

/-- ... and with a larger one never does: the header is in the way. -/
theorem c78_memalign_misaligned (hk : CfgOk k) (hn : 0 < n) {h h' : UHeap} {objs : List CObj} (r : CRun k n h objs)
    {c align size p : Nat} {e : Env} (fr : Fair h c (size + HDR) (max align 8) e) (h8 : align % 8 = 0) (ha : 16 < align)
    (hm : h.memalign k n c align size e = (.ok (some p), h')) : p % align = 16 := by
  have hmax : max align 8 = align := by omega
  rcases ((crun_inv hk hn r).memalign hk hn fr (fun _ => by rw [hmax]; exact h8) hm).2.2 with ⟨e1, _⟩ | ⟨q, e1, _, h1⟩
  · cases e1
  · cases e1
    rw [hmax] at h1
    rw [HDR_eq, Nat.add_mod, h1, Nat.zero_add, Nat.mod_mod, Nat.mod_eq_of_lt ha]

/-- **C78.** `malloc` succeeds if the kernel has a page for the core. -/
theorem c78_served (hk : CfgOk k) (hn : 0 < n) {h : UHeap} {c size : Nat} {e : Env} (hw : size + HDR < WORD)
    (hz : size + HDR ≤ k.maxAlloc) (g : Gives h c e.ok (pageFor k (size + HDR))) :
    ∃ p h', h.malloc k n c size e = (.ok (some p), h') := by
  obtain ⟨p, h', e1⟩ := c77_served_small_partial (n := n) (align := 8) hk hn hz (by
    unfold pageFor
    split
    · rw [BASE_eq]
    · rw [LARGE_eq]) g
  unfold UHeap.malloc
  rw [if_neg (by omega), e1]
  exact ⟨_, _, rfl⟩

/-- **C78.** `mmap` of more than a page: memory at the start of a large page that was not mapped before. -/
theorem c78_mmap (hk : CfgOk k) (hn : 0 < n) {h h' : UHeap} {objs : List CObj} (r : CRun k n h objs) {c len p : Nat}
    {ok : Nat → Nat → Bool} (e : h.mmap c 0 len ok = (.ok p, h')) :
    h'.mm = ⟨p, len⟩ :: h.mm ∧ h'.mem = h.mem ∧ p % LARGE = 0 ∧ ∀ a, p ≤ a → a < p + len → Mapped h' a ∧ ¬ Mapped h a :=
  c77_mmap hk hn (crun_inv hk hn r).run e

/-- `mmap` of a page or less, or with an address, panics. -/
theorem c78_mmap_small {h : UHeap} {c addr len : Nat} {ok : Nat → Nat → Bool} :
    (addr ≠ 0 ∨ len ≤ 4096) → h.mmap c addr len ok = (.panic, h) := by
  intro hx
  unfold UHeap.mmap
  rw [if_pos hx]

end NRK.UHeap
