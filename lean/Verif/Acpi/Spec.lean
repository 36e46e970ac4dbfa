import Verif.Common

/-!
# Specification: what the ACPI interpreter relies on

Nothing of the model is used.
-/

namespace NRK.Acpi.Spec

/-- What happens to memory: the interpreter allocates, frees and writes; other kernel code does the same. -/
inductive Op where
  | alloc (size : Nat)
  | free (p : Nat)
  | write (a : Nat) (v : UInt8)
  | kalloc (size : Nat)
  | kfree (p size : Nat)
  | kwrite (a : Nat) (v : UInt8)
  deriving DecidableEq, Repr

/-- What the callers know: the interpreter's objects (address, size), the blocks of other kernel code, and the bytes
the interpreter has written into objects it still has. -/
structure View where
  objs : List (Nat × Nat)
  kobjs : List (Nat × Nat)
  wrote : Nat → Option UInt8

/-- Address `a` is inside of one of the blocks. -/
def inside (l : List (Nat × Nat)) (a : Nat) : Prop := ∃ x ∈ l, x.1 ≤ a ∧ a < x.1 + x.2

/-- At the start. -/
def View.init : View := ⟨[], [], fun _ => none⟩

/-- What callers may do: free what they have (or null), write into what they have, ask for sizes that leave room for a
header. -/
def View.may (w : View) : Op → Prop
  | .alloc n => n + 16 < 2 ^ 64
  | .free p => p = 0 ∨ ∃ n, (p, n) ∈ w.objs
  | .write a _ => inside w.objs a
  | .kalloc n => 0 < n
  | .kfree p n => (p, n) ∈ w.kobjs
  | .kwrite a _ => inside w.kobjs a

/-- What callers know after an operation that returned `ret` (null if there is no memory). -/
def View.after (w : View) (op : Op) (ret : Nat) : View :=
  match op with
  | .alloc n => if ret = 0 then w else { w with objs := (ret, n) :: w.objs }
  | .free p =>
    ⟨w.objs.filter (·.1 != p), w.kobjs,
      fun a => if w.objs.any (fun x => x.1 == p && decide (p ≤ a) && decide (a < p + x.2)) then none else w.wrote a⟩
  | .write a v => { w with wrote := upd w.wrote a (some v) }
  | .kalloc n => if ret = 0 then w else { w with kobjs := (ret, n) :: w.kobjs }
  | .kfree p n => { w with kobjs := w.kobjs.filter (· != (p, n)) }
  | .kwrite _ _ => w

/-- Two blocks share no byte. -/
def Apart (x y : Nat × Nat) : Prop := x.1 + x.2 ≤ y.1 ∨ y.1 + y.2 ≤ x.1

/-- What the kernel's allocator promises for alignment 8: memory that is not null, aligned, within the address space,
and apart from everything in use. -/
def Allocator (pick : List (Nat × Nat) → Nat → Option Nat) : Prop :=
  ∀ live n p, pick live n = some p → 0 < p ∧ p % 8 = 0 ∧ p + n ≤ 2 ^ 64 ∧ ∀ b ∈ live, Apart (p, n) b

/-- A function that enters mappings of whole pages: page `v + i` to frame `p + i` for `i < n`, nothing else changes. -/
def Mapper (map : (Nat → Option Nat) → Nat → Nat → Nat → Option (Nat → Option Nat)) : Prop :=
  ∀ t v p n t', map t v p n = some t' →
    (∀ i, i < n → t' (v + i) = some (p + i)) ∧ ∀ q, q < v ∨ v + n ≤ q → t' q = t q

/-- The physical address behind an address. -/
def translate (t : Nat → Option Nat) (a : Nat) : Option Nat := (t (a / 4096)).map (fun f => f * 4096 + a % 4096)

/-- The kinds of entries in the firmware's list of tables. -/
inductive Guid where
  | acpi1
  | acpi2
  | other
  deriving DecidableEq, Repr

/-- The address of the last entry of a kind. -/
def find (g : Guid) (l : List (Guid × Nat)) : Option Nat := ((l.filter (·.1 = g)).map (·.2)).getLast?

/-- Where the ACPI tables start: the entry for ACPI 2 or later; if there is none that for ACPI 1; 0 if there is none. -/
def root (l : List (Guid × Nat)) : Nat := ((find .acpi2 l).or (find .acpi1 l)).getD 0

/-- An access to an I/O port. -/
inductive Port where
  | read (address width : Nat)
  | write (address width value : Nat)
  deriving DecidableEq, Repr

/-- What the devices see of the accesses asked for: those with 8, 16 or 32 bits, and as many bits of the value. -/
def seen : List Port → List Port
  | [] => []
  | .read a w :: l => if w = 8 ∨ w = 16 ∨ w = 32 then .read a w :: seen l else seen l
  | .write a w v :: l => if w = 8 ∨ w = 16 ∨ w = 32 then .write a w (v % 2 ^ w) :: seen l else seen l

/-- An access that can be done: 8, 16 or 32 bits. -/
def Port.valid : Port → Bool
  | .read _ w => w == 8 || w == 16 || w == 32
  | .write _ w _ => w == 8 || w == 16 || w == 32

/-- The port number of an access is one that exists. -/
def Port.exists_ : Port → Prop
  | .read a _ => a < 65536
  | .write a _ _ => a < 65536

/-- What devices do with a sequence of accesses: their answers (0 for a write) and their new state. -/
def direct {D : Type} (inp : D → Nat → Nat → Nat × D) (out : D → Nat → Nat → Nat → D) : D → List Port → List Nat × D
  | d, [] => ([], d)
  | d, .read a w :: l => ((inp d a w).1 :: (direct inp out (inp d a w).2 l).1, (direct inp out (inp d a w).2 l).2)
  | d, .write a w v :: l => (0 :: (direct inp out (out d a w v) l).1, (direct inp out (out d a w v) l).2)

end NRK.Acpi.Spec
