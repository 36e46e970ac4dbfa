import Verif.UHeap.UHeapSpec
import Verif.UHeap.TlsModel

/-!
# What programs rely on of thread-local variables

`TRun k n t tmpl s`: a program with the TLS segment `t`, whose threads have control blocks like `tmpl`, has come to the
state `s`.  `s.vars` has the values that the variables should have: a new thread starts with the image of the
segment, and only its own assignments change them.
-/

namespace NRK.UHeap

open NRK.Mem NRK.Mem.Spec NRK.Heap

/-- A thread with its area: `base` is its start. -/
structure TThr where
  tid : Nat
  core : Nat
  base : Nat
deriving DecidableEq, Repr

/-- The control block of a thread, and the area as an object of the heap. -/
def TThr.tcb (t : Tls) (x : TThr) : Nat := x.base + t.total
def TThr.obj (t : Tls) (size : Nat) (x : TThr) : UObj := ⟨x.core, x.base, t.total + size, t.align⟩

/-- The state of a process: the heap, the objects of the program, its threads; for every core the register `fs` and
the thread that runs. -/
structure TSt where
  h : UHeap
  objs : List UObj
  thr : List TThr
  fs : Nat → Nat
  run : Nat → Option Nat
  vars : Nat → Nat → UInt8

/-- Another heap and other objects. -/
def TSt.heap (s : TSt) (h : UHeap) (objs : List UObj) : TSt := { s with h := h, objs := objs }

/-- A byte is stored. -/
def TSt.store (s : TSt) (a : Nat) (v : UInt8) : TSt := { s with h := { s.h with mem := upd s.h.mem a v } }

/-- Histories. -/
inductive TRun (k : HCfg) (n : Nat) (t : Tls) (tmpl : List UInt8) : TSt → Prop
  | start {pagers maps mem vars} : (∀ c, 0 < (pagers c).sbrk) →
      TRun k n t tmpl ⟨⟨[], [], [], pagers, maps, mem, []⟩, [], [], fun _ => 0, fun _ => none, vars⟩
  /-- A thread is created by a thread on core `c` (`scheduler.rs` lines 152-167). -/
  | spawn {s c e tid base h'} : TRun k n t tmpl s → Fair s.h c (t.total + tmpl.length) t.align e →
      s.h.newTls k n c t tmpl e = (.ok (base + t.total), h') → base + t.total < WORD → (∀ x ∈ s.thr, x.tid ≠ tid) →
      TRun k n t tmpl { s with h := h', thr := ⟨tid, c, base⟩ :: s.thr, vars := upd s.vars tid t.initial }
  /-- A core runs a thread (lines 470-475), ... -/
  | dispatch {s c x} : TRun k n t tmpl s → x ∈ s.thr → s.run c = none → (∀ c', s.run c' ≠ some x.tid) →
      TRun k n t tmpl { s with fs := upd s.fs c (x.tcb t), run := upd s.run c (some x.tid) }
  /-- ... and stops running it (lines 511-514). -/
  | stop {s c} : TRun k n t tmpl s → TRun k n t tmpl { s with fs := upd s.fs c 0, run := upd s.run c none }
  /-- The running thread assigns to a byte of a variable. -/
  | assign {s c tid o v} : TRun k n t tmpl s → s.run c = some tid → o < t.total →
      TRun k n t tmpl { s.store (t.addr (s.fs c) o) v with vars := upd s.vars tid (upd (s.vars tid) o v) }
  /-- A field of a control block changes, but for the first one (`Thread::new`, C library). -/
  | field {s x i v} : TRun k n t tmpl s → x ∈ s.thr → 8 ≤ i → i < tmpl.length →
      TRun k n t tmpl (s.store (x.tcb t + i) v)
  /-- What else happens to the heap. -/
  | alloc {s h' p c size align e} : TRun k n t tmpl s → Fair s.h c size align e →
      s.h.alloc k n c size align e = (.ok (some p), h') → TRun k n t tmpl (s.heap h' (⟨c, p, size, align⟩ :: s.objs))
  | allocNull {s h' c size align e} : TRun k n t tmpl s → Fair s.h c size align e →
      s.h.alloc k n c size align e = (.ok none, h') → TRun k n t tmpl (s.heap h' s.objs)
  | dealloc {s h' o e} : TRun k n t tmpl s → o ∈ s.objs →
      s.h.dealloc k o.core o.ptr o.size e = (.ok (), h') → TRun k n t tmpl (s.heap h' (s.objs.erase o))
  | realloc {s h' q new o e} : TRun k n t tmpl s → o ∈ s.objs → Fair s.h o.core new o.align e →
      (keeps k o.size new → k.cls new = k.cls o.size) →
      s.h.realloc k n o.core o.ptr o.size o.align new e = (.ok (some q), h') →
      TRun k n t tmpl (s.heap h' (⟨o.core, q, new, o.align⟩ :: s.objs.erase o))
  | reallocNull {s h' new o e} : TRun k n t tmpl s → o ∈ s.objs → Fair s.h o.core new o.align e →
      s.h.realloc k n o.core o.ptr o.size o.align new e = (.ok none, h') → TRun k n t tmpl (s.heap h' s.objs)
  | mmap {s h' p c addr len ok} : TRun k n t tmpl s → s.h.mmap c addr len ok = (.ok p, h') →
      TRun k n t tmpl (s.heap h' s.objs)
  | write {s m b} : TRun k n t tmpl s → b ∈ owned s.h s.objs →
      (∀ a, ¬ b.Has a → m a = s.h.mem a) → TRun k n t tmpl (s.heap { s.h with mem := m } s.objs)

end NRK.UHeap
