import Verif.Hist.Props
/-!
# C96: concrete cases
-/

namespace NRK.Hist

/-- The default histogram. -/
def dflt : Hist := ⟨Config.default, 1000, 1024, 10, 27024, fun _ => 0, 0, 0⟩

/-- It is new, and its greatest value has a bucket. -/
theorem c96_default : fresh 60000000000 dflt ∧ HasBucket 60000000000 := by
  refine ⟨⟨0, ?_⟩, .inr (by decide +kernel)⟩
  have h1 : bits (10 ^ 3) = 10 := by decide
  have h2 : bits 60000000000 = 36 := by decide +kernel
  unfold configured
  simp only [h1, h2]
  rfl

/-- A smaller one, for values up to 2000. -/
def small : Hist := ⟨⟨3, 0, 2000⟩, 1000, 1024, 10, 2024, fun _ => 0, 0, 0⟩

theorem c96_small : fresh 2000 small ∧ HasBucket 2000 := by
  refine ⟨⟨0, ?_⟩, .inr (by decide)⟩
  have h1 : bits (10 ^ 3) = 10 := by decide
  have h2 : bits 2000 = 11 := by decide
  unfold configured
  simp only [h1, h2]
  rfl

/-- Recordings that meet the hypotheses: one sample is taken away again. -/
def ops : List Op := [.inc 3 1, .inc 1 1, .inc 1500 2, .inc 2 1, .dec 1500 2]

theorem c96_legal : Legal ops [] ∧ samples ops [] = [2, 1, 3] := by
  refine ⟨?_, by decide⟩
  simp only [Legal, Op.after, ops]
  decide

/-- The state after operations, if there is no panic. -/
def state (os : List Op) (h : Hist) : Hist := (runs os h).getD h

/-- The median of 1, 2 and 3 is reported as 3. -/
theorem c96_median : (state ops small).percentile (Query.exact 1 2) = .ok 3 := by decide +kernel

/-- The 49th percentile is 2, as it should be. -/
theorem c96_low_case : (state ops small).percentile (Query.exact 49 100) = .ok 2 := by decide +kernel

/-- A sample of 1500 is reported as 1501; it is near. -/
theorem c96_rounded : (state [.inc 1500 1] small).maximum = .ok 1501 := by decide +kernel

/-- A sample that is too large makes high percentiles an error. -/
theorem c96_large : (state [.inc 5 3, .inc 3000 1] small).maximum = .err .overflow ∧
    (state [.inc 5 3, .inc 3000 1] small).percentile (Query.exact 49 100) = .ok 5 := by constructor <;> decide +kernel

/-- One for values up to 1030. -/
def tiny : Hist := ⟨⟨3, 0, 1030⟩, 1000, 1024, 10, 2024, fun _ => 0, 0, 0⟩

/-- The reason why the values are only near: merging moves a sample of 1025 to the next bucket, every time. -/
theorem c96_merge_moves :
    ((tiny.merge (state [.inc 1025 1] tiny)).map fun m => (m.get 1025, m.get 1026)) = some (some 0, some 1) ∧
    ((tiny.merge (state [.inc 1026 1] tiny)).map fun m => (m.get 1026, m.get 1027)) = some (some 0, some 1) := by
  constructor <;> decide +kernel

/-- A histogram for values up to 2047 panics when 2047 is recorded: the greatest value has no bucket. -/
theorem c96_no_bucket : ¬ HasBucket 2047 ∧
    ((configured ⟨3, 0, 2047⟩).bind fun r => r.map fun h => (h.incrementBy 2047 1).isNone) = some true := by
  constructor
  · unfold HasBucket; decide
  · decide +kernel

/-- With four digits the buckets are not in order: 16401 is in an earlier bucket than 16400. -/
theorem c96_four_digits :
    ((configured ⟨4, 0, 60000000000⟩).bind fun r => r.map fun h => (h.getIndex 16400, h.getIndex 16401)) =
      some (16400, 16395) := by decide +kernel

/-- A histogram that would take more memory than allowed is refused. -/
theorem c96_memory : (configured ⟨3, 8192, 10000⟩).map (·.isNone) = some true := by decide +kernel

/-- With eight digits the size in bytes does not fit in 32 bits. -/
theorem c96_eight_digits : (configured ⟨8, 0, 60000000000⟩).isNone = true ∧ (configured ⟨7, 0, 60000000000⟩).isNone = false := by
  decide +kernel

/-- `c96_refused`: two samples of 5 and one beyond the greatest value. -/
example : Legal [.inc 5 2, .inc 20000 1] [] ∧ (samples [.inc 5 2, .inc 20000 1] []).count 5 < 3 ∧
    (samples [.inc 5 2, .inc 20000 1] []).countP (fun w => decide (10000 < w)) < 2 := by
  refine ⟨?_, by decide, by decide⟩
  simp [Legal, Op.after]

end NRK.Hist
