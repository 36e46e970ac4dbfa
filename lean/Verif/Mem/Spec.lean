/-!
# Specification vocabulary for physical and virtual memory

Blocks of memory as address ranges.  Nothing here refers to the model of the code.
-/

namespace NRK.Mem.Spec

/-- A block of memory: start address and length in bytes. -/
structure Block where
  start : Nat
  len : Nat
deriving DecidableEq, Repr

/-- Address `a` belongs to the block. -/
def Block.Has (b : Block) (a : Nat) : Prop := b.start ≤ a ∧ a < b.start + b.len

/-- No address belongs to both. -/
def Disjoint (b c : Block) : Prop := ∀ a, ¬ (b.Has a ∧ c.Has a)

/-- Every address of `b` belongs to `c`. -/
def Inside (b c : Block) : Prop := ∀ a, b.Has a → c.Has a

/-- The blocks in the list are disjoint from each other. -/
def AllDisjoint (bs : List Block) : Prop := bs.Pairwise Disjoint

theorem Disjoint.symm {b c : Block} (h : Disjoint b c) : Disjoint c b :=
  fun a ha => h a ⟨ha.2, ha.1⟩

theorem disjoint_of_le {b c : Block} (h : b.start + b.len ≤ c.start) : Disjoint b c := by
  intro a ⟨h1, h2⟩
  unfold Block.Has at h1 h2
  omega

theorem disjoint_of_ge {b c : Block} (h : c.start + c.len ≤ b.start) : Disjoint b c :=
  (disjoint_of_le h).symm

theorem inside_of_le {b c : Block} (h1 : c.start ≤ b.start)
    (h2 : b.start + b.len ≤ c.start + c.len) : Inside b c := by
  intro a ha
  unfold Block.Has at *
  omega

theorem Disjoint.mono {b c b' c' : Block} (h : Disjoint b c) (hb : Inside b' b)
    (hc : Inside c' c) : Disjoint b' c' :=
  fun a ⟨h1, h2⟩ => h a ⟨hb a h1, hc a h2⟩

end NRK.Mem.Spec
