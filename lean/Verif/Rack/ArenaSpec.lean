/-!
# What a kernel of the rack relies on about its heap (C93)

Nothing here refers to the model.  Physical memory comes in pieces.  Some ranges of it are shared between the
machines of the rack, one per machine; the first part of a range may be set aside for messages.
-/

namespace NRK.Rack.Arena.Spec

/-- A piece of physical memory. -/
structure Piece where
  base : Nat
  len : Nat
deriving DecidableEq, Repr

/-- The piece has this byte. -/
def Piece.Has (p : Piece) (x : Nat) : Prop := p.base ≤ x ∧ x < p.base + p.len

/-- A range of shared memory: where the device is, how much of its start is for messages, how long it is. -/
structure Range where
  base : Nat
  messages : Nat
  len : Nat
deriving DecidableEq, Repr

/-- A byte of the range that programs and kernels may be given. -/
def Range.Usable (r : Range) (x : Nat) : Prop := r.base + r.messages ≤ x ∧ x < r.base + r.len

/-- Any byte of the range. -/
def Range.Has (r : Range) (x : Nat) : Prop := r.base ≤ x ∧ x < r.base + r.len

/-- Where memory is asked for: at a node of this machine, or in the shared memory of a machine of the rack. -/
inductive Place where
  | node (n : Nat)
  | shared (machine : Nat)
deriving DecidableEq, Repr

/-- The byte is memory of the right kind: shared memory of that machine and not its messages, or memory that
is not shared at all.  (Which node local memory belongs to is left open, see C93's findings.) -/
def Fits (shared : Nat → Option Range) : Place → Nat → Prop
  | .shared m, x => ∃ r, shared m = some r ∧ r.Usable x
  | .node _, x => ∀ m r, shared m = some r → ¬ r.Has x

end NRK.Rack.Arena.Spec
