import Verif.Common

/-!
# What a user expects of the console (C90)

Nothing here refers to the model of the kernel: bytes, lines, and who printed what.
-/

namespace NRK.Console.Spec

/-- The line feed. -/
def nl : UInt8 := 10

/-- The complete lines of a text (with their line feeds), and what is behind the last line feed. -/
def lines : List UInt8 → List (List UInt8) × List UInt8
  | [] => ([], [])
  | b :: t =>
    if b = nl then ([b] :: (lines t).1, (lines t).2)
    else
      match (lines t).1 with
      | [] => ([], b :: (lines t).2)
      | l :: ls => ((b :: l) :: ls, (lines t).2)

/-- No line of the text is longer than `n` bytes (the line feed not counted). -/
def Fits (n : Nat) (t : List UInt8) : Prop :=
  ∀ u m v, t = u ++ m ++ v → nl ∉ m → m.length ≤ n

/-- The text has a line feed at its end or none. -/
def LineWise (t : List UInt8) : Prop := nl ∉ t.dropLast

/-- What happens, seen from outside: core `i` prints a text, or something else. -/
inductive Ev where
  | print (i : Nat) (t : List UInt8)
  | other

/-- Everything that core `i` printed, in the order of its calls. -/
def said : List Ev → Nat → List UInt8
  | [], _ => []
  | .print j t :: h, i => (if j = i then t else []) ++ said h i
  | .other :: h, i => said h i

/-- The bytes that came from core `i`, of a list of bytes that carry the core they came from. -/
def from_ (i : Nat) (w : List (Nat × UInt8)) : List UInt8 :=
  (w.filter (fun p => p.1 = i)).map Prod.snd

/-- The blocks that came from core `i`. -/
def blocksOf (i : Nat) (bs : List (Nat × List UInt8)) : List (List UInt8) :=
  (bs.filter (fun p => p.1 = i)).map Prod.snd

/-- What stands on the console when `bs` are put out one after the other, each in one piece. -/
def inOnePiece (bs : List (Nat × List UInt8)) : List (Nat × UInt8) :=
  bs.flatMap (fun p => p.2.map (fun b => (p.1, b)))

end NRK.Console.Spec
