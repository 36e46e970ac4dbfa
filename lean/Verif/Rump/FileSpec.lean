import Verif.Common
import Verif.Fs.Spec

/-!
# The files of a rump kernel's host (C98)

What `rumpuser_open` and the calls after it promise: names denote objects, descriptors are open objects with rights and a
position.  Nothing here refers to the model.
-/

namespace NRK.Rump.Spec

open NRK.Fs.Spec (readAt writeAt)

/-- What a name denotes: a directory, or bytes that may be read and written or not. -/
inductive Obj where
  | dir
  | file (bytes : List UInt8) (rd wr : Bool)
  deriving DecidableEq, Repr

/-- An open file: the object, the rights asked for, and the position. -/
structure Handle where
  id : Nat
  rd : Bool
  wr : Bool
  pos : Nat
  deriving DecidableEq, Repr

structure Store where
  names : String → Option Nat
  objs : Nat → Option Obj
  fds : Nat → Option Handle

/-- How a file is to be opened. -/
structure OpenMode where
  rd : Bool
  wr : Bool
  create : Bool
  excl : Bool
  deriving DecidableEq, Repr

/-- The numbers of the rump kernel interface: 0 to read, 1 to write, 2 both; 4 to create, 8 to fail if it exists. -/
def OpenMode.ofNumber (n : Nat) : OpenMode :=
  ⟨decide (n % 4 ≠ 1), decide (n % 4 ≠ 0), decide (n / 4 % 2 = 1), decide (n / 8 % 2 = 1)⟩

/-- The calls.  An offset `none` is the position of the descriptor.  A name `none` is not a text. -/
inductive Op where
  | open (name : Option String) (m : OpenMode)
  | close (fd : Int)
  | info (name : Option String)
  | read (fd : Int) (len : Nat) (off : Option Nat)
  | write (fd : Int) (data : List UInt8) (off : Option Nat)

inductive Res where
  | fd (n : Nat)
  | done
  | info (isDir : Bool) (size : Nat)
  | got (data : List UInt8)
  | wrote (n : Nat)
  | error
  deriving DecidableEq, Repr

/-- The open file with this number. -/
def Store.handle (s : Store) (fd : Int) : Option Handle := if 0 ≤ fd then s.fds fd.toNat else none

def Store.setPos (s : Store) (fd : Int) (h : Handle) (p : Nat) : Store :=
  { s with fds := upd s.fds fd.toNat (some { h with pos := p }) }

/-- What may happen. -/
inductive Step (s : Store) : Op → Res → Store → Prop
  | openOld {name m i fd} : s.names name = some i → ¬ (m.create = true ∧ m.excl = true) → s.fds fd = none →
      Step s (.open (some name) m) (.fd fd) { s with fds := upd s.fds fd (some ⟨i, m.rd, m.wr, 0⟩) }
  | openNew {name m i fd} : s.names name = none → m.create = true → s.objs i = none → s.fds fd = none →
      Step s (.open (some name) m) (.fd fd)
        ⟨upd s.names name (some i), upd s.objs i (some (.file [] true true)), upd s.fds fd (some ⟨i, m.rd, m.wr, 0⟩)⟩
  | openMissing {name m} : s.names name = none → m.create = false → Step s (.open (some name) m) .error s
  | openExists {name m} : s.names name ≠ none → m.create = true → m.excl = true → Step s (.open (some name) m) .error s
  | openFull {name m} : (∀ fd, fd < 4096 → s.fds fd ≠ none) → Step s (.open name m) .error s
  | openBad {m} : Step s (.open none m) .error s
  | close {fd h} : s.handle fd = some h → Step s (.close fd) .done { s with fds := upd s.fds fd.toNat none }
  | closeBad {fd} : s.handle fd = none → Step s (.close fd) .error s
  | infoFile {name i b rd wr} : s.names name = some i → s.objs i = some (.file b rd wr) →
      Step s (.info (some name)) (.info false b.length) s
  | infoDir {name i} : s.names name = some i → s.objs i = some .dir → Step s (.info (some name)) (.info true 0) s
  | infoMissing {name} : s.names name = none → Step s (.info (some name)) .error s
  | infoBad : Step s (.info none) .error s
  | read {fd len off h b wr} : s.handle fd = some h → h.rd = true → s.objs h.id = some (.file b true wr) →
      Step s (.read fd len off) (.got (readAt b (off.getD h.pos) len))
        (if off = none then s.setPos fd h (h.pos + (readAt b h.pos len).length) else s)
  | readBad {fd len off} : (∀ h b wr, s.handle fd = some h → h.rd = true → s.objs h.id ≠ some (.file b true wr)) →
      Step s (.read fd len off) .error s
  | write {fd data off h b rd} : s.handle fd = some h → h.wr = true → s.objs h.id = some (.file b rd true) →
      Step s (.write fd data off) (.wrote data.length)
        (let s' : Store := { s with objs := upd s.objs h.id (some (.file (writeAt b (off.getD h.pos) data) rd true)) }
         if off = none then s'.setPos fd h (h.pos + data.length) else s')
  | writeBad {fd data off} : (∀ h b rd, s.handle fd = some h → h.wr = true → s.objs h.id ≠ some (.file b rd true)) →
      Step s (.write fd data off) .error s

/-- One call after the other. -/
inductive Steps : Store → List (Op × Res) → Store → Prop
  | nil {s} : Steps s [] s
  | cons {s s' s'' o r l} : Step s o r s' → Steps s' l s'' → Steps s ((o, r) :: l) s''

end NRK.Rump.Spec
