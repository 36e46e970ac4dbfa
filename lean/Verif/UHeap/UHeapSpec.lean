import Verif.UHeap.UHeapModel

/-!
# What programs rely on of their heap

`Run k n h objs`: the operations of a program, on whatever cores, have led to the heap `h`, and `objs` are the
objects that were allocated and not yet freed.
-/

namespace NRK.UHeap

open NRK.Mem NRK.Mem.Spec NRK.Heap

/-- An object that was allocated and not freed: what its owner knows, and the core it was allocated on. -/
structure UObj where
  core : Nat
  ptr : Nat
  size : Nat
  align : Nat
deriving DecidableEq, Repr

/-- The bytes that belong to the owner. -/
def UObj.block (o : UObj) : Block := ⟨o.ptr, o.size⟩

/-- What the constants of the slab allocator have to be. -/
structure CfgOk (k : HCfg) : Prop where
  kb : k.kb = 0
  le : ∀ s ≤ k.maxAlloc, s ≤ k.cls s ∧ 0 < k.cls s
  top : ∀ s ≤ k.maxAlloc, k.cls s ≤ k.maxAlloc
  large : k.maxAlloc ≤ LARGE
  over : k.overhead ≤ BASE
  fitB : ∀ s ≤ k.maxBase, k.cls s + k.overhead ≤ BASE
  fitL : ∀ s ≤ k.maxAlloc, k.cls s + k.overhead ≤ LARGE

/-- The part of the address space of core `c` has room for `m` more large pages, and the kernel has memory. -/
def Room (h : UHeap) (c m : Nat) (ok : Nat → Nat → Bool) : Prop :=
  ∀ j < m, roundUp (h.pagers c).sbrk LARGE + j * LARGE < (h.pagers c).limit ∧
    ok (roundUp (h.pagers c).sbrk LARGE + j * LARGE) LARGE = true ∧
    ∀ b ∈ h.maps, Disjoint b ⟨roundUp (h.pagers c).sbrk LARGE + j * LARGE, LARGE⟩

/-- An address that the kernel has mapped. -/
def Mapped (h : UHeap) (a : Nat) : Prop := ∃ b ∈ h.maps, b.Has a

/-- The blocks have the same bytes in both memories. -/
def Same (m m' : Nat → UInt8) (bs : List Block) : Prop := ∀ b ∈ bs, ∀ a, b.Has a → m' a = m a

/-- What belongs to the program: its objects, and the memory it got from `mmap`. -/
def owned (h : UHeap) (objs : List UObj) : List Block := h.mm ++ objs.map UObj.block

/-- What may be asked for: something, with an alignment that is a power of two of up to a large page, and objects
of more than a large page only while the core's part of the address space has room. -/
structure Fair (h : UHeap) (c size align : Nat) (e : Env) : Prop where
  pos : 0 < size
  align : 0 < align ∧ LARGE % align = 0
  room : LARGE < size → Room h c ((size + LARGE - 1) / LARGE) e.ok

/-- Histories.  Objects are freed and resized on the core they were allocated on; a shrinking `realloc` that keeps
the pointer stays in its size class.  `relax`: the owner of an object is content with another alignment it has. -/
inductive Run (k : HCfg) (n : Nat) : UHeap → List UObj → Prop
  | start {pagers maps mem} : (∀ c, 0 < (pagers c).sbrk) →
      Run k n ⟨[], [], [], pagers, maps, mem, []⟩ []
  | alloc {h objs h' p c size align e} : Run k n h objs → Fair h c size align e →
      h.alloc k n c size align e = (.ok (some p), h') → Run k n h' (⟨c, p, size, align⟩ :: objs)
  | allocNull {h objs h' c size align e} : Run k n h objs → Fair h c size align e →
      h.alloc k n c size align e = (.ok none, h') → Run k n h' objs
  | dealloc {h objs h' o e} : Run k n h objs → o ∈ objs →
      h.dealloc k o.core o.ptr o.size e = (.ok (), h') → Run k n h' (objs.erase o)
  | realloc {h objs h' q new o e} : Run k n h objs → o ∈ objs → Fair h o.core new o.align e →
      (keeps k o.size new → k.cls new = k.cls o.size) →
      h.realloc k n o.core o.ptr o.size o.align new e = (.ok (some q), h') →
      Run k n h' (⟨o.core, q, new, o.align⟩ :: objs.erase o)
  | reallocNull {h objs h' new o e} : Run k n h objs → o ∈ objs → Fair h o.core new o.align e →
      h.realloc k n o.core o.ptr o.size o.align new e = (.ok none, h') → Run k n h' objs
  | relax {h objs o a} : Run k n h objs → o ∈ objs → o.ptr % a = 0 →
      Run k n h (⟨o.core, o.ptr, o.size, a⟩ :: objs.erase o)
  | mmap {h objs h' p c addr len ok} : Run k n h objs → h.mmap c addr len ok = (.ok p, h') → Run k n h' objs
  | write {h objs m b} : Run k n h objs → b ∈ owned h objs →
      (∀ a, ¬ b.Has a → m a = h.mem a) → Run k n { h with mem := m } objs

end NRK.UHeap
