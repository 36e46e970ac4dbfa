import Verif.Irq.MsiProps

/-!
# C102 on concrete tables and controllers
-/

namespace NRK.Irq.Wit

/-- A table after reset, with reserved bits set. -/
def tbl : List Entry := [⟨0, 0, 1⟩, ⟨0xFF0, 0xABCD3800, 1⟩, ⟨5, 6, 1⟩]

/-- The entry after the call. -/
theorem wit_enable : enableMsixVector tbl 1 3 249 =
    .ok [⟨0, 0, 1⟩, ⟨0xFFFFFFFFFEE037F0, 0xABCD78F9, 0⟩, ⟨5, 6, 1⟩] := by decide +kernel

/-- Vectors out of range, an entry that is not there. -/
theorem wit_refused : enableMsixVector tbl 1 3 15 = .panic ∧ enableMsixVector tbl 1 3 254 = .panic ∧
    enableMsixVector tbl 3 3 249 = .panic := by decide +kernel

/-- The hypotheses of `c102_machines` hold for a rack whose machines all came up, and the conclusion is not empty. -/
theorem wit_machines : ∃ t, clientInit tbl = .ok t ∧ (∀ e, e ∈ tbl → e.control.toNat.testBit 0 = true) ∧
    interruptMachine 2 = .ok 0x20001 ∧ (sent (fun _ => t) 0x20001 2).isSome ∧ sent (fun _ => t) 0x20001 1 = none :=
  ⟨[⟨0, 0, 1⟩, ⟨0xFFFFFFFFFEE007F0, 0xABCD78F9, 0⟩, ⟨5, 6, 1⟩], by decide +kernel, by decide +kernel, by decide +kernel,
    by decide +kernel, by decide +kernel⟩

/-- The second call masks the vector: the message is no longer sent. -/
theorem wit_twice : ∃ t t', enableMsixVector tbl 1 0 249 = .ok t ∧ enableMsixVector t 1 2 249 = .ok t' ∧
    (sent (fun _ => t) 0x20001 2).isSome ∧ sent (fun _ => t') 0x20001 2 = none :=
  ⟨[⟨0, 0, 1⟩, ⟨0xFFFFFFFFFEE007F0, 0xABCD78F9, 0⟩, ⟨5, 6, 1⟩], [⟨0, 0, 1⟩, ⟨0xFFFFFFFFFEE027F0, 0xABCD78F9, 1⟩, ⟨5, 6, 1⟩],
    by decide +kernel, by decide +kernel, by decide +kernel, by decide +kernel⟩

/-- The doorbell value of peer 7, vector 1. -/
theorem wit_doorbell : doorbell 1 7 = 0x70001 ∧ Spec.rings 0x70001 = (7, 1) := by decide +kernel

/-- A machine with the usual controller of 24 lines: asked for line 11 on core 3, the lines 0 and 3 to 15 are enabled, for
core 0. -/
theorem wit_irqalloc : (allocateVector [⟨0, 24⟩] 11 3).2 = (11, 3) ∧
    (allocateVector [⟨0, 24⟩] 11 3).1.map (·.line) = [0, 3, 4, 5, 6, 7, 8, 9, 10, 11, 12, 13, 14, 15] ∧
    (⟨0, 11, 0⟩ : Route) ∈ (allocateVector [⟨0, 24⟩] 11 3).1 ∧ (⟨0, 11, 3⟩ : Route) ∉ (allocateVector [⟨0, 24⟩] 11 3).1 := by
  decide +kernel

end NRK.Irq.Wit
