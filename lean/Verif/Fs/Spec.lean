/-!
# Specification of file contents

A file is a flat sequence of bytes.  Nothing in this file refers to the model of the code.
-/

namespace NRK.Fs.Spec

/-- Replace the bytes of `l` from position `o` on by `d` (used with `o + d.length ≤ l.length`). -/
def overwrite {α : Type} (l : List α) (o : Nat) (d : List α) : List α :=
  l.take o ++ d ++ l.drop (o + d.length)

/-- Zero-extend a byte string to at least `n` bytes. -/
def zeroExtend (bs : List UInt8) (n : Nat) : List UInt8 :=
  bs ++ List.replicate (n - bs.length) 0

/-- The contents after writing `d` at offset `o`: zero-extend up to the end of the written
range, then overwrite. -/
def writeAt (bs : List UInt8) (o : Nat) (d : List UInt8) : List UInt8 :=
  overwrite (zeroExtend bs (o + d.length)) o d

/-- The bytes a read of at most `n` bytes at offset `o` returns. -/
def readAt (bs : List UInt8) (o n : Nat) : List UInt8 :=
  (bs.drop o).take n

/-- One operation on the contents of a file. -/
inductive FileOp where
  | write (o : Nat) (d : List UInt8)
  | truncate

/-- Effect of an operation on a flat byte array. -/
def applyOp (bs : List UInt8) : FileOp → List UInt8
  | .write o d => writeAt bs o d
  | .truncate => []

/-- Effect of a history on a flat byte array. -/
def applyOps (bs : List UInt8) (ops : List FileOp) : List UInt8 :=
  ops.foldl applyOp bs

end NRK.Fs.Spec
