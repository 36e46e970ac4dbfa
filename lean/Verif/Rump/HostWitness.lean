import Verif.Rump.HostProps
import Verif.UHeap.UHeapWitness

/-! # C97: concrete cases -/

namespace NRK.Rump

open NRK.Mem NRK.Mem.Spec NRK.Heap NRK.UHeap NRK.Rump.Spec

/-- `c97_malloc`: core 1 of the heap with one object in use asks for 64 bytes aligned to 16. -/
theorem wfair : Fair u1 1 64 (alignOf 16) uenv := by
  have hL : LARGE = 2097152 := LARGE_eq
  refine ⟨by decide, ⟨by decide, by rw [hL]; decide⟩, fun h => ?_⟩
  rw [hL] at h
  omega

theorem wmalloc : ∃ p h', malloc ureal 4 u1 1 64 16 uenv = (.ok (0, some p), h') ∧ Run ureal 4 u1 [uo1] :=
  ⟨0x80001000, _, pair_eta (by decide +kernel), urun1⟩

/-- With alignment 0 the heap gives memory aligned to 16. -/
example : (malloc ureal 4 u1 1 5 0 uenv).1 = .ok (0, some 0x80001000) := by decide +kernel

/-- `c97_free`: the object of 100 bytes. -/
example : (free ureal u1 1 0x80000000 100 uenv).1 = .ok () := by decide +kernel

/-- `c97_no_memory`: a reachable state, with no memory in the kernel. -/
example : ∃ h objs, Run ureal 4 h objs ∧ (malloc ureal 4 h 3 100 8 uoom).1 = .ok (0, none) :=
  ⟨u5, _, urun5, by decide +kernel⟩

/-- Random numbers: the low bytes. -/
example : getrandom (fun i => some (BitVec.ofNat 16 (0x1201 + i))) [9, 9, 9] = ⟨0, 3, [1, 2, 3]⟩ := by decide

/-- `c97_clock`: 2.5 seconds after boot, at a Unix time of 1700000000 seconds. -/
def wclock : Clock := ⟨2500000007, 0, 1700000000⟩

example : wclock.wall + wclock.since < 2 ^ 63 := by decide

unseal NS in
example : gettime wclock 1 = (0, some (2, 500000007)) := by decide +kernel

unseal NS in
example : gettime wclock 0 = (0, some (1700000002, 500000007)) := by decide +kernel

/-- `c97_sleep_until_partial`: until 3 seconds after boot. -/
example : wclock.boot = 0 ∧ wclock.now ≤ 1000000000 * 3 + 0 := by decide

unseal NS in
example : clockSleep wclock 1 3 0 = .ok (499999993, 0) := by decide +kernel

/-- `c97_sleep_past`: the counter was at 5 seconds at boot.  A sleep until the third second after boot, asked for in the
second one, is a panic. -/
theorem c97_sleep_future_panics :
    let c : Clock := ⟨7000000000, 5000000000, 0⟩
    c.since < 1000000000 * 3 ∧ clockSleep c 1 3 0 = .panic :=
  ⟨by decide, c97_sleep_past _ 3 0 (by decide)⟩

/-- Parameters: a program started with the command line `+16`. -/
example : getparam [43, 49, 54] "_RUMPUSER_NCPU" [7, 7, 7, 7, 7] = .ok (0, [49, 54, 0, 7, 7]) := by decide +kernel

example : Number [43, 49, 54] 16 :=
  ⟨[49, 54], .inr rfl, by simp, by intro b hb; simp at hb; rcases hb with rfl | rfl <;> (unfold Digit; decide), by decide, by decide⟩

/-- One started with `x`: a single processor. -/
example : getparam [120] "_RUMPUSER_NCPU" [7, 7] = .ok (0, [49, 0]) := by decide +kernel

/-- An unknown parameter. -/
example : getparam [] "HOME" [7, 7] = .ok (2, [7, 7]) := by decide +kernel

/-- `c97_param_panic`: no room for the zero at the end. -/
example : getparam [] "_RUMPUSER_HOSTNAME" [0, 0, 0, 0, 0] = .panic := by decide +kernel

end NRK.Rump
