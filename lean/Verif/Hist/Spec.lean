/-!
# C96: what a histogram of samples is to report

Samples are natural numbers (nanoseconds); the order in which they were recorded does not matter.
-/

namespace NRK.Hist

/-- `s` is the `k`-th smallest of the samples. -/
def Rank (l : List Nat) (k s : Nat) : Prop :=
  s ∈ l ∧ l.countP (fun v => decide (v < s)) < k ∧ k ≤ l.countP (fun v => decide (v ≤ s))

/-- `s` is the `k`-th largest of the samples. -/
def RankTop (l : List Nat) (k s : Nat) : Prop :=
  s ∈ l ∧ l.countP (fun v => decide (s < v)) < k ∧ k ≤ l.countP (fun v => decide (s ≤ v))

/-- `r` stands for the sample `s`: it is not below it, and above it by at most one thousandth, and one. -/
def Near (s r : Nat) : Prop := s ≤ r ∧ r ≤ s + s / 1000 + 1

/-- The number of samples that are at most the `a / b`-th part of all: the rank of a percentile (nearest rank). -/
def rankOf (a b n : Nat) : Nat := (n * a + b - 1) / b

/-- What a program does with a histogram. -/
inductive Op where
  | inc (v n : Nat)
  | dec (v n : Nat)
  | clear
  deriving DecidableEq, Repr

/-- `n` samples of value `v` are taken away. -/
def without (v : Nat) : Nat → List Nat → List Nat
  | 0, l => l
  | n + 1, l => without v n (l.erase v)

/-- The samples after an operation. -/
def Op.after (l : List Nat) : Op → List Nat
  | .inc v n => List.replicate n v ++ l
  | .dec v n => without v n l
  | .clear => []

/-- The samples after operations. -/
def samples : List Op → List Nat → List Nat
  | [], l => l
  | o :: os, l => samples os (o.after l)

/-- Only samples that are there are taken away, and there are never `2^64` of them. -/
def Legal : List Op → List Nat → Prop
  | [], _ => True
  | o :: os, l => (match o with | .dec v n => n ≤ l.count v | _ => True) ∧ (o.after l).length < 2 ^ 64 ∧ Legal os (o.after l)

end NRK.Hist
