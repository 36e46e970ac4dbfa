import Verif.UHeap.UHeapSpec
import Verif.UHeap.CMemModel

/-! # What C programs rely on of `malloc` and its relatives -/

namespace NRK.UHeap

open NRK.Mem NRK.Mem.Spec NRK.Heap

/-- An object of a C program; `base` is where the header is. -/
structure CObj where
  core : Nat
  base : Nat
  size : Nat
deriving DecidableEq, Repr

/-- The pointer that the program has. -/
def CObj.ptr (o : CObj) : Nat := o.base + HDR

/-- The bytes that belong to the program. -/
def CObj.block (o : CObj) : Block := ⟨o.ptr, o.size⟩

/-- What belongs to the program: its objects, and memory from `mmap`. -/
def cowned (h : UHeap) (objs : List CObj) : List Block := h.mm ++ objs.map CObj.block

/-- Histories of C programs: objects are freed and resized on their core, by their pointer alone; a resize that
keeps the pointer stays in the size class; what the program writes stays within what belongs to it. -/
inductive CRun (k : HCfg) (n : Nat) : UHeap → List CObj → Prop
  | start {pagers maps mem} : (∀ c, 0 < (pagers c).sbrk) →
      CRun k n ⟨[], [], [], pagers, maps, mem, []⟩ []
  | malloc {h objs h' p c size e} : CRun k n h objs → Fair h c (size + HDR) 8 e →
      h.malloc k n c size e = (.ok (some (p + HDR)), h') → CRun k n h' (⟨c, p, size⟩ :: objs)
  | mallocNull {h objs h' c size e} : CRun k n h objs → Fair h c (size + HDR) 8 e →
      h.malloc k n c size e = (.ok none, h') → CRun k n h' objs
  | calloc {h objs h' p c nmem size e} : CRun k n h objs → Fair h c (nmem * size + HDR) 8 e →
      h.calloc k n c nmem size e = (.ok (some (p + HDR)), h') → CRun k n h' (⟨c, p, nmem * size⟩ :: objs)
  | callocNull {h objs h' c nmem size e} : CRun k n h objs → Fair h c (nmem * size + HDR) 8 e →
      h.calloc k n c nmem size e = (.ok none, h') → CRun k n h' objs
  | memalign {h objs h' p c align nbytes e} : CRun k n h objs → Fair h c (nbytes + HDR) (max align 8) e →
      max align 8 % 8 = 0 → h.memalign k n c align nbytes e = (.ok (some (p + HDR)), h') →
      CRun k n h' (⟨c, p, nbytes⟩ :: objs)
  | memalignNull {h objs h' c align nbytes e} : CRun k n h objs → Fair h c (nbytes + HDR) (max align 8) e →
      h.memalign k n c align nbytes e = (.ok none, h') → CRun k n h' objs
  | free {h objs h' o e} : CRun k n h objs → o ∈ objs →
      h.cfree k o.core o.ptr e = (.ok (), h') → CRun k n h' (objs.erase o)
  | realloc {h objs h' p new o e} : CRun k n h objs → o ∈ objs → Fair h o.core (new + HDR) 8 e →
      (keeps k (o.size + HDR) (new + HDR) → k.cls (new + HDR) = k.cls (o.size + HDR)) →
      h.crealloc k n o.core o.ptr new e = (.ok (p + HDR), h') →
      CRun k n h' (⟨o.core, p, new⟩ :: objs.erase o)
  | mmap {h objs h' p c addr len ok} : CRun k n h objs → h.mmap c addr len ok = (.ok p, h') → CRun k n h' objs
  | write {h objs m b} : CRun k n h objs → b ∈ cowned h objs →
      (∀ a, ¬ b.Has a → m a = h.mem a) → CRun k n { h with mem := m } objs

end NRK.UHeap
