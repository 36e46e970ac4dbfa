import Verif.UHeap.TlsProps
import Verif.UHeap.UHeapWitness

/-! # C79: a history, and what goes wrong -/

namespace NRK.UHeap

open NRK.Mem NRK.Mem.Spec NRK.Heap

/-- A segment of 24 bytes, of which two start as 7 and 9, and a control block of 104 bytes. -/
def wt : Tls := ⟨[7, 9], 24, 8⟩
def wtmpl : List UInt8 := List.replicate 104 0

theorem wt_ok : TlsOk wt wtmpl := ⟨by decide, by decide, by decide⟩

def w0 : TSt := ⟨u0, [], [], fun _ => 0, fun _ => none, fun _ _ => 0⟩
/-- Two threads ... -/
def w1 : TSt := { w0 with h := (u0.newTls ureal 4 1 wt wtmpl uenv).2, thr := [⟨1, 1, 0x80000000⟩], vars := upd w0.vars 1 wt.initial }
def w2 : TSt := { w1 with
  h := (w1.h.newTls ureal 4 1 wt wtmpl uenv).2
  thr := [⟨2, 1, 0x80000080⟩, ⟨1, 1, 0x80000000⟩]
  vars := upd w1.vars 2 wt.initial }
/-- ... run on two cores, ... -/
def w3 : TSt := { w2 with fs := upd w2.fs 0 0x80000018, run := upd w2.run 0 (some 1) }
def w4 : TSt := { w3 with fs := upd w3.fs 1 0x80000098, run := upd w3.run 1 (some 2) }
/-- ... and the first one assigns to the second byte. -/
def w5 : TSt := { w4.store (wt.addr (w4.fs 0) 1) 5 with vars := upd w4.vars 1 (upd (w4.vars 1) 1 5) }

theorem wfair {h : UHeap} : Fair h 1 (wt.total + wtmpl.length) wt.align uenv :=
  ⟨by decide, ⟨by decide, by rw [LARGE_eq]; decide⟩, fun h => by
    rw [LARGE_eq] at h
    exact absurd h (by decide)⟩

theorem word_big {a : Nat} (h : a < 2 ^ 64) : a < WORD := by unfold WORD; exact h

theorem trun2 : TRun ureal 4 wt wtmpl w2 := by
  have r0 : TRun ureal 4 wt wtmpl w0 := TRun.start (fun c => by show 0 < 0x40000000 + c * 0x40000000; omega)
  have r1 : TRun ureal 4 wt wtmpl w1 :=
    TRun.spawn r0 (c := 1) (e := uenv) (tid := 1) (base := 0x80000000) wfair (pair_eta (by decide +kernel))
      (word_big (by decide)) (fun _ h => by cases h)
  exact TRun.spawn r1 (c := 1) (e := uenv) (tid := 2) (base := 0x80000080) wfair (pair_eta (by decide +kernel))
      (word_big (by decide)) (by decide)

theorem trun5 : TRun ureal 4 wt wtmpl w5 := by
  have r3 : TRun ureal 4 wt wtmpl w3 := TRun.dispatch trun2 (c := 0) (x := ⟨1, 1, 0x80000000⟩) (by decide) rfl
    (fun c' h => by cases h)
  have r4 : TRun ureal 4 wt wtmpl w4 := TRun.dispatch r3 (c := 1) (x := ⟨2, 1, 0x80000080⟩) (by decide) (by decide)
    (fun c' h => by
      have h : upd w2.run 0 (some 1) c' = some 2 := h
      unfold upd at h
      split at h
      · simp at h
      · cases h)
  exact TRun.assign r4 (c := 0) (tid := 1) (o := 1) (v := 5) (by decide) (by decide)

example : w5.run 0 = some 1 ∧ w5.run 1 = some 2 ∧ w5.vars 1 1 = 5 ∧ w5.vars 2 1 = 9 ∧ w5.vars 2 2 = 0 := by decide +kernel

/-- A segment of 4 bytes with an alignment of 16: the second thread does not see the initial value of its variable,
and assigning to it changes the control block of the first. -/
def bt : Tls := ⟨[7], 4, 16⟩
def b0 : TSt := ⟨u0, [], [], fun _ => 0, fun _ => none, fun _ _ => 0⟩
def b1 : TSt := { b0 with h := (u0.newTls ureal 4 1 bt (List.replicate 124 1) uenv).2, thr := [⟨1, 1, 0x80000000⟩], vars := upd b0.vars 1 bt.initial }
def b2 : TSt := { b1 with
  h := (b1.h.newTls ureal 4 1 bt (List.replicate 124 1) uenv).2
  thr := [⟨2, 1, 0x80000080⟩, ⟨1, 1, 0x80000000⟩]
  vars := upd b1.vars 2 bt.initial }
def b3 : TSt := { b2 with fs := upd b2.fs 0 0x80000084, run := upd b2.run 0 (some 2) }

theorem c79_unpadded :
    ∃ s, TRun ureal 4 bt (List.replicate 124 1) s ∧ s.run 0 = some 2 ∧ s.h.mem (bt.addr (s.fs 0) 0) ≠ s.vars 2 0 ∧
      ∃ x ∈ s.thr, x.tid = 1 ∧ x.tcb bt ≤ bt.addr (s.fs 0) 0 ∧ bt.addr (s.fs 0) 0 < x.tcb bt + 124 := by
  have fr : ∀ h, Fair h 1 (bt.total + (List.replicate 124 (1 : UInt8)).length) bt.align uenv := fun h => by
    rw [List.length_replicate]
    exact
    ⟨by decide, ⟨by decide, by rw [LARGE_eq]; decide⟩, fun h => by
      rw [LARGE_eq] at h
      exact absurd h (by decide)⟩
  have r0 : TRun ureal 4 bt (List.replicate 124 1) b0 := TRun.start (fun c => by show 0 < 0x40000000 + c * 0x40000000; omega)
  have r1 : TRun ureal 4 bt (List.replicate 124 1) b1 :=
    TRun.spawn r0 (c := 1) (e := uenv) (tid := 1) (base := 0x80000000) (fr _) (pair_eta (by decide +kernel))
      (word_big (by decide)) (fun _ h => by cases h)
  have r2 : TRun ureal 4 bt (List.replicate 124 1) b2 :=
    TRun.spawn r1 (c := 1) (e := uenv) (tid := 2) (base := 0x80000080) (fr _) (pair_eta (by decide +kernel))
      (word_big (by decide)) (by decide)
  have r3 : TRun ureal 4 bt (List.replicate 124 1) b3 := TRun.dispatch r2 (c := 0) (x := ⟨2, 1, 0x80000080⟩) (by decide) rfl
    (fun c' h => by cases h)
  exact ⟨b3, r3, by decide, by decide +kernel, ⟨1, 1, 0x80000000⟩, by decide, rfl, by decide +kernel, by decide +kernel⟩

/-- A control block that is not aligned (the segment has 4 bytes with an alignment of 4). -/
theorem c79_tcb_unaligned : (u0.newTls ureal 4 1 ⟨[], 4, 4⟩ wtmpl uenv).1 = .ok 0x80000004 ∧ 0x80000004 % 8 = 4 := by
  decide +kernel

/-- The kernel. -/
example : ∃ m, kernelTls (fun _ => 3) (some 0x1000) wt = .ok (0x1018, m) ∧ m 0x1001 = 9 ∧ m 0x1002 = 0 ∧ m 0x1028 = 3 :=
  ⟨_, rfl, by decide +kernel, by decide +kernel, by decide +kernel⟩

end NRK.UHeap
