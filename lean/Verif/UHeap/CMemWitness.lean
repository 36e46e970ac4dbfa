import Verif.UHeap.CMemProps
import Verif.UHeap.UHeapWitness

/-! # C78: a history, and what goes wrong -/

namespace NRK.UHeap

open NRK.Mem NRK.Mem.Spec NRK.Heap

/-- The classes in use are multiples of 16 from 16 bytes on. -/
theorem ureal_16 : ∀ s, 16 ≤ s → s ≤ ureal.maxAlloc → ureal.cls s % 16 = 0 := by
  intro s h1 (h2 : s ≤ 131072)
  obtain ⟨a, b⟩ := classOf_mem (m := 131072) (by decide) h2
  have hc : ∀ c ∈ classes, c = 8 ∨ c % 16 = 0 := by decide
  rcases hc _ b with h | h
  · omega
  · exact h

theorem ureal_0 : ureal.cls 0 < HDR := by decide

/-- Core 1: `malloc(100)`, `calloc(10, 20)`. -/
def v1 : UHeap := (u0.malloc ureal 4 1 100 uenv).2
def v2 : UHeap := (v1.calloc ureal 4 1 10 20 uenv).2
/-- The program writes to the last byte of the first object, ... -/
def v3 : UHeap := { v2 with mem := fun a => if a = 0x80000010 + 99 then 42 else v2.mem a }
/-- ... and it grows. -/
def v4 : UHeap := (v3.crealloc ureal 4 1 0x80000010 1000 uenv).2
def v5 : UHeap := (v4.cfree ureal 1 0x80001010 uenv).2

def vo1 : CObj := ⟨1, 0x80000000, 100⟩
def vo2 : CObj := ⟨1, 0x80001000, 200⟩
def vo3 : CObj := ⟨1, 0x80002000, 1000⟩

theorem fair_small {h : UHeap} {c size : Nat} {e : Env} (h1 : 0 < size) (h2 : size ≤ 2097152) : Fair h c size 8 e :=
  ⟨h1, ⟨by decide, by rw [LARGE_eq]⟩, fun h => by rw [LARGE_eq] at h; omega⟩

theorem crun0 : CRun ureal 4 u0 [] := CRun.start (fun c => by show 0 < 0x40000000 + c * 0x40000000; omega)

theorem crun1 : CRun ureal 4 v1 [vo1] :=
  CRun.malloc crun0 (p := 0x80000000) (c := 1) (size := 100) (e := uenv) (fair_small (by decide) (by decide))
    (pair_eta (by decide +kernel))

theorem crun2 : CRun ureal 4 v2 [vo2, vo1] :=
  CRun.calloc crun1 (p := 0x80001000) (c := 1) (nmem := 10) (size := 20) (e := uenv)
    (fair_small (by decide) (by decide)) (pair_eta (by decide +kernel))

theorem crun3 : CRun ureal 4 v3 [vo2, vo1] := by
  refine CRun.write crun2 (b := vo1.block) (List.mem_append_right _ (by decide)) (fun a ha => ?_)
  show (if a = 0x80000010 + 99 then 42 else v2.mem a) = v2.mem a
  rw [if_neg]
  rintro rfl
  exact ha ⟨by decide, by decide⟩

theorem crun4 : CRun ureal 4 v4 [vo3, vo2] :=
  CRun.realloc crun3 (o := vo1) (p := 0x80002000) (new := 1000) (e := uenv) (by decide)
    (fair_small (by decide) (by decide)) (fun h => absurd h (by unfold keeps; decide)) (pair_eta (by decide +kernel))

example : v4.mem (0x80002010 + 99) = 42 := by decide +kernel

theorem crun5 : CRun ureal 4 v5 [vo3] := by
  have := CRun.free crun4 (o := vo2) (e := uenv) (h' := v5) (by decide) (pair_eta (by decide +kernel))
  exact this

/-- `calloc` (`c78_calloc` is not vacuous). -/
example : v2.mem (0x80001010 + 199) = 0 := by decide +kernel

/-- `posix_memalign` with an alignment of 64 bytes succeeds, with an address that is not aligned. -/
theorem c78_memalign_sample :
    ∃ h objs, CRun ureal 4 h objs ∧ (h.memalign ureal 4 1 64 100 uenv).1 = .ok (some 0x80000090) ∧ 0x80000090 % 64 = 16 :=
  ⟨v1, _, crun1, by decide +kernel, by decide⟩

/-- An object that was made smaller by `realloc`: `free` panics, as the new header names another size class. -/
theorem c78_shrink_free :
    ∃ h objs, CRun ureal 4 h objs ∧ vo3 ∈ objs ∧ (h.crealloc ureal 4 vo3.core vo3.ptr 50 uenv).1 = .ok vo3.ptr ∧
      ((h.crealloc ureal 4 vo3.core vo3.ptr 50 uenv).2.cfree ureal vo3.core vo3.ptr uenv).1 = .panic :=
  ⟨v5, _, crun5, by decide, by decide +kernel, by decide +kernel⟩

/-- `realloc` without memory does not return NULL: it writes to address 0 (and without that would return 16). -/
theorem c78_realloc_crashes :
    ∃ h objs, CRun ureal 4 h objs ∧ vo3 ∈ objs ∧ (h.malloc ureal 4 1 5000 uoom).1 = .ok none ∧
      (h.crealloc ureal 4 vo3.core vo3.ptr 5000 uoom).1 = .panic :=
  ⟨v5, _, crun5, by decide, by decide +kernel, by decide +kernel⟩

/-- `calloc` of more than fits in a number: a panic (in a release build: too few bytes) instead of NULL. -/
theorem c78_calloc_overflow : (u0.calloc ureal 4 1 (2 ^ 32) (2 ^ 32) uenv).1 = .panic := by
  unfold UHeap.calloc
  rw [if_pos]
  unfold WORD
  rw [HDR_eq]
  decide

/-- An object freed on a core that it was not allocated on. -/
theorem c78_other_core_free :
    ∃ h objs, CRun ureal 4 h objs ∧ vo3 ∈ objs ∧ (h.cfree ureal 2 vo3.ptr uenv).1 = .panic :=
  ⟨v5, _, crun5, by decide, by decide +kernel⟩

/-- `mmap`. -/
example : ∃ h', v5.mmap 1 0 5000 uenv.ok = (.ok 0x80200000, h') := ⟨_, pair_eta (by decide +kernel)⟩

end NRK.UHeap
