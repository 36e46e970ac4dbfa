import Verif.Heap.HeapModel
import Verif.Mem.McacheProps

/-!
# What users of the kernel heap rely on

`Run k init h objs`: starting with the pages `init` in the two page caches, the operations of the heap's users
have led to the heap `h`, and `objs` are the objects that were allocated and not yet freed.
-/

namespace NRK.Heap

open NRK.Mem NRK.Mem.Spec

/-- An object that was allocated and not freed: what its owner knows. -/
structure Obj where
  ptr : Nat
  size : Nat
  align : Nat
deriving DecidableEq, Repr

/-- The bytes that belong to the owner. -/
def Obj.block (o : Obj) : Block := ⟨o.ptr, o.size⟩

/-- What the constants have to be. -/
structure HCfg.Ok (k : HCfg) : Prop where
  kb : k.kb % LARGE = 0
  le : ∀ s ≤ k.maxAlloc, s ≤ k.cls s ∧ 0 < k.cls s ∧ k.cls s ≤ k.maxAlloc
  base : BASE ≤ k.maxAlloc
  large : k.maxAlloc ≤ LARGE
  over : k.overhead ≤ BASE
  fitB : ∀ s ≤ k.maxBase, k.cls s + k.overhead ≤ BASE
  fitL : ∀ s ≤ k.maxAlloc, k.cls s + k.overhead ≤ LARGE

/-- The blocks of memory that objects of between 128 KiB and 2 MiB occupy. -/
def midBlocks (k : HCfg) (objs : List Obj) : List Block :=
  (objs.filter fun o => decide (k.maxAlloc < o.size ∧ o.size ≤ LARGE)).map fun o => ⟨o.ptr - k.kb, LARGE⟩

/-- All the physical memory there is, by who has it. -/
def phys (k : HCfg) (h : Heap) (objs : List Obj) : List Block :=
  h.nc.held ++ h.tc.held ++ h.zone.pages.map Frame.block ++ midBlocks k objs ++ h.mapped.map (fun m => m.2.block)

/-- The mapping covers an address. -/
def Backed (mapped : List (Nat × Frame)) (a : Nat) : Prop := ∃ m ∈ mapped, m.1 ≤ a ∧ a < m.1 + m.2.size

/-- The objects have the same bytes in both memories. -/
def Same (m m' : Nat → UInt8) (objs : List Obj) : Prop :=
  ∀ o ∈ objs, ∀ i < o.size, m' (o.ptr + i) = m (o.ptr + i)

/-- Histories of the heap.  `dealloc` and `realloc` are called with the pointer and the layout of a live object,
and alignments are powers of two of up to a large page (`LARGE % align = 0`), as the contract of `GlobalAlloc`
demands; a shrinking `realloc` that keeps the pointer stays in its size class (see `c63_shrink_then_free` for what
happens otherwise). -/
inductive Run (k : HCfg) : List Block → Heap → List Obj → Prop
  | start {nc tc : MCache} {sbrk : Nat} {mem : Nat → UInt8} : nc.Wf → tc.Wf → nc.node = tc.node →
      AllDisjoint (nc.held ++ tc.held) → (∀ b ∈ nc.held ++ tc.held, k.kb + (b.start + b.len) ≤ sbrk) →
      sbrk % LARGE = 0 → Run k (nc.held ++ tc.held) ⟨nc, tc, ⟨[], [], []⟩, sbrk, [], mem⟩ []
  | alloc {init h objs h' p size align e} : Run k init h objs → 0 < size → 0 < align → LARGE % align = 0 →
      h.alloc k size align e = (.ok (some p), h') → Run k init h' (⟨p, size, align⟩ :: objs)
  | allocNull {init h objs h' size align e} : Run k init h objs → 0 < size → 0 < align → LARGE % align = 0 →
      h.alloc k size align e = (.ok none, h') → Run k init h' objs
  | dealloc {init h objs h' o e} : Run k init h objs → o ∈ objs →
      h.dealloc k o.ptr o.size o.align e = (.ok (), h') → Run k init h' (objs.erase o)
  | realloc {init h objs h' q new o e} : Run k init h objs → o ∈ objs → 0 < new →
      (inPlace k o.size new → k.cls new = k.cls o.size) →
      h.realloc k o.ptr o.size o.align new e = (.ok (some q), h') → Run k init h' (⟨q, new, o.align⟩ :: objs.erase o)
  | reallocNull {init h objs h' new o e} : Run k init h objs → o ∈ objs → 0 < new →
      h.realloc k o.ptr o.size o.align new e = (.ok none, h') → Run k init h' objs
  | write {init h objs m o} : Run k init h objs → o ∈ objs →
      (∀ a, ¬ o.block.Has a → m a = h.mem a) → Run k init { h with mem := m } objs

end NRK.Heap
