/-!
# Specification of a program's access to PCI devices

What a PCI bus does with one access to a configuration register, what it means that the accesses of many threads
happen one after the other, which address a device has to be given for memory of a program, and which handler
belongs to an interrupt.
-/

namespace NRK.Pci.Spec

/-- A configuration register: 4 bytes of one function of one device. -/
structure Reg where
  bus : Nat
  dev : Nat
  fun_ : Nat
  word : Nat
deriving DecidableEq, Repr

/-- The devices, whatever they are: what a read gives (it may have effects) and what a write does. -/
structure Bus (D : Type) where
  rd : D → Reg → Nat × D
  wr : D → Reg → Nat → D

/-- What a program asks for: bus, device, function and byte offset of the register. -/
inductive Call where
  | read (bus dev fun_ : Nat) (reg : Int)
  | write (bus dev fun_ : Nat) (reg : Int) (value : Nat)
deriving DecidableEq, Repr

/-- The arguments exist on a PCI bus. -/
def Call.Valid : Call → Prop
  | .read b d f r | .write b d f r _ => b < 256 ∧ d < 32 ∧ f < 8 ∧ 0 ≤ r ∧ r ≤ 0xfc

instance (c : Call) : Decidable c.Valid := by
  cases c <;> unfold Call.Valid <;> infer_instance

/-- The register that is meant: the aligned 4 bytes at the offset. -/
def Call.reg : Call → Reg
  | .read b d f r | .write b d f r _ => ⟨b, d, f, r.toNat / 4⟩

/-- One access on its own: the value read (0 for a write) and the devices after it. -/
def access {D : Type} (b : Bus D) (d : D) (c : Call) : Nat × D :=
  match c with
  | .read .. => b.rd d c.reg
  | .write _ _ _ _ v => (0, b.wr d c.reg v)

/-- What is seen of threads that access the bus: a call starts, it takes effect (with this result), it returns. -/
inductive Event where
  | start (t : Nat) (c : Call)
  | effect (t : Nat) (c : Call) (result : Nat)
  | ret (t : Nat) (result : Nat)
deriving DecidableEq, Repr

def Event.thread : Event → Nat
  | .start t _ | .effect t _ _ | .ret t _ => t

/-- The effects, one after the other on the devices, have the results they say; the devices after them. -/
def replay {D : Type} (b : Bus D) : D → List Event → Option D
  | d, [] => some d
  | d, .effect _ c r :: es => if (access b d c).1 = r then replay b (access b d c).2 es else none
  | d, _ :: es => replay b d es

/-- Where a thread is. -/
inductive Phase where
  | outside
  | called (c : Call)
  | effected (r : Nat)
deriving DecidableEq, Repr

/-- One thread's events: every call takes effect once, as the call it is, between its start and its return, and
returns the result of the effect.  The phase the thread is in after them. -/
def phase : Phase → List Event → Option Phase
  | p, [] => some p
  | .outside, .start _ c :: es => phase (.called c) es
  | .called c, .effect _ c' r :: es => if c = c' then phase (.effected r) es else none
  | .effected r, .ret _ r' :: es => if r = r' then phase .outside es else none
  | _, _ :: _ => none

/-- The calls of all threads behave as if each happened at one moment between its start and its return. -/
def Atomic {D : Type} (b : Bus D) (d0 d : D) (es : List Event) : Prop :=
  replay b d0 es = some d ∧ ∀ t, (phase .outside (es.filter (·.thread == t))).isSome

/-- The `width` bits of a register at a byte offset. -/
def field (word offset width : Nat) : Nat := word / 256 ^ (offset % 4) % 2 ^ width

/-- The physical address of a byte, for a map from pages to where they are. -/
def translate (pt : Nat → Option Nat) (va : Nat) : Option Nat := (pt (va / 4096)).map (· + va % 4096)

/-- What a driver does about interrupts: it connects an interrupt with a number (the cookie), and then names a
handler for that number. -/
inductive IrqCall where
  | map (vector : Nat) (cookie : Nat)
  | establish (cookie handler arg : Nat)
deriving DecidableEq, Repr

/-- The handler of a cookie, the last one named. -/
def handlerOf (cookie : Nat) : List IrqCall → Option (Nat × Nat)
  | [] => none
  | .establish k h a :: cs => (handlerOf cookie cs).or (if k = cookie then some (h, a) else none)
  | .map .. :: cs => handlerOf cookie cs

/-- The cookie of an interrupt, the last one connected. -/
def cookieOf (vector : Nat) : List IrqCall → Option Nat
  | [] => none
  | .map v k :: cs => (cookieOf vector cs).or (if v = vector then some k else none)
  | .establish .. :: cs => cookieOf vector cs

/-- The handler that has to run for an interrupt. -/
def wanted (vector : Nat) (cs : List IrqCall) : Option (Nat × Nat) :=
  (cookieOf vector cs).bind (handlerOf · cs)

/-- A device on the bus, by vendor and device number. -/
structure Dev where
  vendor : Nat
  device : Nat
deriving DecidableEq, Repr

end NRK.Pci.Spec
